import Verif.Spec.LineTrace
/-!
# C128, C129: traces and keepalive parameters of a line and of its clones
-/
set_option maxRecDepth 10000
namespace Verif.Trace

/-- the trace configured after some actions -/
def curOf : Option Nat → List Act → Option Nat
  | c, [] => c
  | _, .started k :: as => curOf (some k) as
  | _, .stopped :: as => curOf none as
  | c, .packet _ _ :: as => curOf c as
  | c, .keepalive _ :: as => curOf c as

theorem recorded_append {P : Who → Prop} : ∀ {as bs : List Act} {c : Option Nat}, Recorded P c as → Recorded P (curOf c as) bs → Recorded P c (as ++ bs) := by
  intro as
  induction as with
  | nil => intro bs c _ h; exact h
  | cons a as ih =>
    intro bs c h h2
    cases a with
    | started k => exact ih h h2
    | stopped => exact ih h h2
    | packet w d => exact ⟨h.1, ih h.2 h2⟩
    | keepalive p => exact ih h h2

/-- the descriptor of the line is that of the trace configured -/
def MainOk (w : W) (cur : Option Nat) : Prop := dest w w.main.fd = cur.map (fun k => some (.trace k))

theorem mainOk_none {w : W} {cur : Option Nat} (h : MainOk w cur) (hm : w.main.fd = none) : cur = none := by
  cases cur with
  | none => rfl
  | some k => simp [MainOk, hm, dest] at h

theorem mainOk_some {w : W} {cur : Option Nat} (h : MainOk w cur) {n : Nat} (hm : w.main.fd = some n) : ∃ k, cur = some k ∧ w.fds n = some (.trace k) := by
  cases cur with
  | none => simp [MainOk, hm, dest] at h
  | some k => exact ⟨k, rfl, by simpa [MainOk, hm, dest] using h⟩

/-- the descriptors of the traces are those of the line -/
theorem step_main {w w' : W} {cur : Option Nat} {op : Op} {a : List Act} (M : MainOk w cur) (h : step w op = .ok (w', a)) :
    MainOk w' (curOf cur a) ∧ Recorded (fun x => x = .line) cur a := by
  have hset : ∀ fd f, w.fds fd = none → MainOk { w with fds := setFd w fd f, next := w.next + 1 } cur := by
    intro fd f hf
    cases hm : w.main.fd with
    | none =>
      have := mainOk_none M hm
      subst this
      simp [MainOk, dest, hm]
    | some n =>
      obtain ⟨k, rfl, hk⟩ := mainOk_some M hm
      have : n ≠ fd := by intro e; rw [e, hf] at hk; simp at hk
      simp [MainOk, dest, hm, setFd, this, hk]
  cases op with
  | pcap fd wr =>
    cases fd with
    | none => cases h; exact ⟨M, trivial⟩
    | some fd =>
      simp only [step] at h
      split at h
      · cases h; exact ⟨M, trivial⟩
      · rename_i hf
        have hf : w.fds fd = none := Decidable.not_not.1 hf
        split at h
        · cases h; exact ⟨M, trivial⟩
        · cases h
          refine ⟨?_, trivial⟩
          show dest _ (some fd) = some (some (.trace w.next))
          simp only [dest, setPcap, closeOld]
          cases hm : w.main.fd with
          | none => simp [setFd]
          | some n =>
            obtain ⟨k, rfl, hk⟩ := mainOk_some M hm
            have : fd ≠ n := by intro e; rw [← e, hf] at hk; simp at hk
            simp [setFd, this]
  | noPcap => cases h; exact ⟨rfl, trivial⟩
  | openOther fd =>
    simp only [step] at h
    split at h
    · cases h; exact ⟨M, trivial⟩
    · rename_i hf
      cases h
      exact ⟨hset fd _ (Decidable.not_not.1 hf), trivial⟩
  | closeOther fd =>
    simp only [step] at h
    split at h
    · rename_i k hk
      cases h
      refine ⟨?_, trivial⟩
      show MainOk _ cur
      cases hm : w.main.fd with
      | none =>
        have := mainOk_none M hm
        subst this
        simp [MainOk, dest, hm]
      | some n =>
        obtain ⟨j, rfl, hj⟩ := mainOk_some M hm
        have : n ≠ fd := by intro e; rw [e, hk] at hj; simp at hj
        simp [MainOk, dest, hm, setFd, this, hj]
    · cases h; exact ⟨M, trivial⟩
  | clone => cases h; exact ⟨M, trivial⟩
  | unclone id => cases h; exact ⟨M, trivial⟩
  | lapdCreate => cases h; exact ⟨M, trivial⟩
  | lapdDestroy id => cases h; exact ⟨M, trivial⟩
  | setKap on => cases h; exact ⟨M, trivial⟩
  | kaAlloc id =>
    simp only [step, bind, Except.bind] at h
    split at h
    · simp at h
    · split at h
      · cases h; exact ⟨M, trivial⟩
      · split at h
        · cases h; exact ⟨M, trivial⟩
        · simp at h
  | packet x =>
    cases x with
    | line => cases h; exact ⟨M, fun _ => M, trivial⟩
    | clone id =>
      simp only [step, bind, Except.bind] at h
      split at h
      · simp at h
      · cases h; exact ⟨M, fun h => by simp at h, trivial⟩
    | lapd id =>
      simp only [step, bind, Except.bind] at h
      split at h
      · simp at h
      · cases h; exact ⟨M, fun h => by simp at h, trivial⟩

theorem run_main {ops : List Op} : ∀ {w w' : W} {cur : Option Nat} {a : List Act}, MainOk w cur → run w ops = .ok (w', a) →
    MainOk w' (curOf cur a) ∧ Recorded (fun x => x = .line) cur a := by
  induction ops with
  | nil => intro w w' cur a M h; cases h; exact ⟨M, trivial⟩
  | cons op ops ih =>
    intro w w' cur a M h
    simp only [run, bind, Except.bind] at h
    split at h
    · simp at h
    · rename_i v hv
      split at h
      · simp at h
      · rename_i u hu
        cases h
        have h1 := step_main M (w' := v.1) (a := v.2) hv
        have h2 := ih h1.1 (w' := u.1) (a := u.2) hu
        refine ⟨?_, recorded_append h1.2 h2.2⟩
        have : ∀ (as bs : List Act) (c : Option Nat), curOf c (as ++ bs) = curOf (curOf c as) bs := by
          intro as
          induction as with
          | nil => intro bs c; rfl
          | cons a as ih => intro bs c; cases a <;> exact ih bs _
        rw [this]
        exact h2.1

/-- **C128** for the line itself: in every history, all its packets are recorded in the trace configured at that time, and nowhere else -/
theorem C128_line {ops : List Op} {w : W} {a : List Act} (h : run init ops = .ok (w, a)) : Recorded (fun x => x = .line) none a :=
  (run_main (w := init) (cur := none) (show dest init none = none from rfl) h).2

/-- what is shared is in agreement -/
structure Agree (w : W) : Prop where
  clones : ∀ p ∈ w.clones, p.2 = w.main
  lapd : ∀ p ∈ w.lapd, p.2 = w.main.fd

theorem getLine_mem {α : Type} {ls : List (Nat × α)} {id : Nat} {x : α} (h : getLine ls id = .ok x) : ∃ p ∈ ls, p.2 = x := by
  unfold getLine at h
  split at h
  · rename_i p hp
    cases h
    exact ⟨p, List.mem_of_find?_eq_some hp, rfl⟩
  · simp at h

theorem step_agree {w w' : W} {op : Op} {a : List Act} (A : Agree w) (C : Calm w op) (h : step w op = .ok (w', a)) : Agree w' := by
  cases op with
  | pcap fd wr =>
    have C : w.clones = [] := C
    cases fd with
    | none => cases h; exact A
    | some fd =>
      simp only [step] at h
      split at h
      · cases h; exact A
      · split at h
        · cases h; exact ⟨A.clones, A.lapd⟩
        · cases h
          refine ⟨?_, ?_⟩
          · intro p hp
            have hp : p ∈ w.clones := hp
            rw [C] at hp; simp at hp
          · intro p hp
            obtain ⟨q, hq, rfl⟩ := List.mem_map.1 hp
            rfl
  | noPcap =>
    have C : w.clones = [] := C
    cases h
    refine ⟨?_, ?_⟩
    · intro p hp
      have hp : p ∈ w.clones := hp
      rw [C] at hp; simp at hp
    · intro p hp
      obtain ⟨q, hq, rfl⟩ := List.mem_map.1 hp
      rfl
  | openOther fd =>
    simp only [step] at h
    split at h <;> cases h
    · exact A
    · exact ⟨A.clones, A.lapd⟩
  | closeOther fd =>
    simp only [step] at h
    split at h <;> cases h
    · exact ⟨A.clones, A.lapd⟩
    · exact A
  | clone =>
    cases h
    refine ⟨?_, A.lapd⟩
    intro p hp
    rcases List.mem_append.1 hp with hp | hp
    · exact A.clones p hp
    · cases List.mem_singleton.1 hp; rfl
  | unclone id =>
    cases h
    exact ⟨fun p hp => A.clones p (List.mem_filter.1 hp).1, A.lapd⟩
  | lapdCreate =>
    have C : w.main.fd = none := C
    cases h
    refine ⟨A.clones, ?_⟩
    intro p hp
    rcases List.mem_append.1 hp with hp | hp
    · exact A.lapd p hp
    · cases List.mem_singleton.1 hp
      exact C.symm
  | lapdDestroy id =>
    cases h
    exact ⟨A.clones, fun p hp => A.lapd p (List.mem_filter.1 hp).1⟩
  | setKap on =>
    have C : w.clones = [] := C
    cases h
    refine ⟨?_, A.lapd⟩
    intro p hp
    have hp : p ∈ w.clones := hp
    rw [C] at hp; simp at hp
  | kaAlloc id =>
    simp only [step, bind, Except.bind] at h
    split at h
    · simp at h
    · split at h
      · cases h; exact A
      · split at h
        · cases h; exact A
        · simp at h
  | packet x =>
    cases x with
    | line => cases h; exact A
    | clone id =>
      simp only [step, bind, Except.bind] at h
      split at h
      · simp at h
      · cases h; exact A
    | lapd id =>
      simp only [step, bind, Except.bind] at h
      split at h
      · simp at h
      · cases h; exact A

/-- if all agrees, every packet is recorded where it should be -/
theorem step_all {w w' : W} {cur : Option Nat} {op : Op} {a : List Act} (A : Agree w) (M : MainOk w cur) (h : step w op = .ok (w', a)) :
    Recorded (fun _ => True) cur a := by
  cases op with
  | packet x =>
    cases x with
    | line => cases h; exact ⟨fun _ => M, trivial⟩
    | clone id =>
      simp only [step, bind, Except.bind] at h
      split at h
      · simp at h
      · rename_i l hl
        cases h
        obtain ⟨p, hp, rfl⟩ := getLine_mem hl
        exact ⟨fun _ => by rw [A.clones p hp]; exact M, trivial⟩
    | lapd id =>
      simp only [step, bind, Except.bind] at h
      split at h
      · simp at h
      · rename_i l hl
        cases h
        obtain ⟨p, hp, rfl⟩ := getLine_mem hl
        exact ⟨fun _ => by rw [A.lapd p hp]; exact M, trivial⟩
  | pcap fd wr =>
    cases fd with
    | none => cases h; trivial
    | some fd =>
      simp only [step] at h
      split at h
      · cases h; trivial
      · split at h <;> cases h <;> trivial
  | openOther fd => simp only [step] at h; split at h <;> cases h <;> trivial
  | closeOther fd => simp only [step] at h; split at h <;> cases h <;> trivial
  | kaAlloc id =>
    simp only [step, bind, Except.bind] at h
    split at h
    · simp at h
    · split at h
      · cases h; trivial
      · split at h
        · cases h; trivial
        · simp at h
  | noPcap => cases h; trivial
  | clone => cases h; trivial
  | unclone id => cases h; trivial
  | lapdCreate => cases h; trivial
  | lapdDestroy id => cases h; trivial
  | setKap on => cases h; trivial

/-- **C128** as long as the trace is not changed while clones exist, nor LAPD instances are created while one is running: all packets are recorded in the trace
configured at that time, and nowhere else -/
theorem C128_all_partial {ops : List Op} (hc : CalmRun init ops) {w : W} {a : List Act} (h : run init ops = .ok (w, a)) : Recorded (fun _ => True) none a := by
  have key : ∀ {ops : List Op} {w w' : W} {cur : Option Nat} {a : List Act}, Agree w → MainOk w cur → CalmRun w ops → run w ops = .ok (w', a) →
      Recorded (fun _ => True) cur a := by
    intro ops
    induction ops with
    | nil => intro w w' cur a A M _ h; cases h; trivial
    | cons op ops ih =>
      intro w w' cur a A M C h
      simp only [run, bind, Except.bind] at h
      split at h
      · simp at h
      · rename_i v hv
        split at h
        · simp at h
        · rename_i u hu
          cases h
          exact recorded_append (step_all A M (w' := v.1) (a := v.2) hv)
            (ih (step_agree A C.1 (w' := v.1) (a := v.2) hv) (step_main M (w' := v.1) (a := v.2) hv).1 (C.2 v.1 v.2 hv) (w' := u.1) (a := u.2) hu)
  exact key ⟨fun p hp => by simp [init] at hp, fun p hp => by simp [init] at hp⟩ (show MainOk init none from rfl) hc h

/-- an example: a LAPD instance, a trace, a clone, packets of all of them, another trace after the clone is gone -/
def sample : List Op :=
  [.lapdCreate, .pcap (some 3) true, .clone, .packet .line, .packet (.clone 2), .packet (.lapd 0), .openOther 4, .unclone 2, .pcap (some 5) true, .packet (.lapd 0),
   .noPcap, .packet .line]

def acts (r : M (W × List Act)) : Option (List Act) := match r with | .ok p => some p.2 | .error _ => none

theorem sample_run : acts (run init sample) = some [.started 1, .packet .line (some (some (.trace 1))), .packet (.clone 2) (some (some (.trace 1))),
    .packet (.lapd 0) (some (some (.trace 1))), .started 4, .packet (.lapd 0) (some (some (.trace 4))), .stopped, .packet .line none] := by
  decide +kernel

def calmB (w : W) : Op → Bool
  | .pcap _ _ => decide (w.clones = [])
  | .noPcap => decide (w.clones = [])
  | .lapdCreate => decide (w.main.fd = none)
  | .setKap _ => decide (w.clones = [])
  | _ => true

def calmRunB (w : W) : List Op → Bool
  | [] => true
  | op :: ops => calmB w op && (match step w op with | .ok (w', _) => calmRunB w' ops | .error _ => false)

theorem calmRunB_sound {ops : List Op} : ∀ {w : W}, calmRunB w ops = true → CalmRun w ops := by
  induction ops with
  | nil => intro w _; trivial
  | cons op ops ih =>
    intro w h
    simp only [calmRunB, Bool.and_eq_true] at h
    refine ⟨?_, ?_⟩
    · cases op <;> simp_all [calmB, Calm]
    · intro w' a hs
      have h2 := h.2
      rw [hs] at h2
      exact ih h2

theorem sample_calm : CalmRun init sample := calmRunB_sound (by decide +kernel)

/-- **C128 violated**: when the trace of a line is stopped, all clones that have it continue to write to the closed descriptor; the next file or socket that
gets this descriptor receives their records: in every state with a trace, for every clone of it -/
theorem C128_clone_violated {w : W} {n id : Nat} {l : Line} (hm : w.main.fd = some n) (hl : getLine w.clones id = .ok l) (hf : l.fd = some n) :
    ∃ w1 w2, step w .noPcap = .ok (w1, [.stopped]) ∧
      step w1 (.packet (.clone id)) = .ok (w1, [.packet (.clone id) (some none)]) ∧
      step w1 (.openOther n) = .ok (w2, []) ∧
      step w2 (.packet (.clone id)) = .ok (w2, [.packet (.clone id) (some (some (.other w.next)))]) := by
  refine ⟨setPcap w none, { setPcap w none with fds := setFd (setPcap w none) n (some (.other w.next)), next := w.next + 1 }, rfl, ?_, ?_, ?_⟩
  · have : getLine (setPcap w none).clones id = .ok l := hl
    simp only [step, bind, Except.bind, this]
    simp [hf, dest, setPcap, closeOld, hm, setFd]
  · have : (setPcap w none).fds n = none := by simp [setPcap, closeOld, hm, setFd]
    simp only [step, this, ne_eq, not_true, if_false]
    rfl
  · have : getLine (setPcap w none).clones id = .ok l := hl
    simp only [step, bind, Except.bind]
    rw [this]
    simp [hf, dest, setFd]

/-- such a state is reached by a line with a trace and one connection -/
example : ∃ w a l, run init [.pcap (some 3) true, .clone] = .ok (w, a) ∧ w.main.fd = some 3 ∧ getLine w.clones 1 = .ok l ∧ l.fd = some 3 :=
  ⟨_, _, _, rfl, rfl, rfl, rfl⟩

/-- **C128 violated**: packets of a LAPD instance that is created while a trace is running (as it is if the trace is configured in the configuration file) are
not recorded -/
theorem C128_lapd_violated {w : W} (h : ∀ p ∈ w.lapd, p.1 ≠ w.next) :
    ∃ w1, step w .lapdCreate = .ok (w1, []) ∧ w1.main.fd = w.main.fd ∧ step w1 (.packet (.lapd w.next)) = .ok (w1, [.packet (.lapd w.next) none]) := by
  refine ⟨_, rfl, rfl, ?_⟩
  have : getLine (w.lapd ++ [(w.next, none)]) w.next = .ok none := by
    unfold getLine
    rw [List.find?_append, List.find?_eq_none.2 (by intro p hp; simpa using h p hp)]
    simp
  simp only [step, bind, Except.bind, this, dest]

example : acts (run init [.pcap (some 3) true, .lapdCreate, .packet (.lapd 1)]) = some [.started 0, .packet (.lapd 1) none] := by decide +kernel

/-! ### C129 -/

theorem step_safe {w : W} (A : Agree w) {op : Op} {e : Fault} (h : step w op = .error e) :
    ∃ id, (op = .packet (.clone id) ∨ op = .kaAlloc id) ∧ getLine w.clones id = .error e ∨ op = .packet (.lapd id) ∧ getLine w.lapd id = .error e := by
  cases op with
  | packet x =>
    cases x with
    | line => simp [step] at h
    | clone id =>
      simp only [step, bind, Except.bind] at h
      split at h
      · rename_i hx; cases h; exact ⟨id, .inl ⟨.inl rfl, hx⟩⟩
      · simp at h
    | lapd id =>
      simp only [step, bind, Except.bind] at h
      split at h
      · rename_i hx; cases h; exact ⟨id, .inr ⟨rfl, hx⟩⟩
      · simp at h
  | kaAlloc id =>
    simp only [step, bind, Except.bind] at h
    split at h
    · rename_i hx; cases h; exact ⟨id, .inl ⟨.inr rfl, hx⟩⟩
    · rename_i l hl
      obtain ⟨p, hp, rfl⟩ := getLine_mem hl
      rw [A.clones p hp] at h
      split at h
      · simp at h
      · rename_i q hq
        rw [if_pos hq] at h
        simp at h
  | pcap fd wr =>
    cases fd with
    | none => simp [step] at h
    | some fd =>
      simp only [step] at h
      split at h
      · simp at h
      · split at h <;> simp at h
  | openOther fd => simp only [step] at h; split at h <;> simp at h
  | closeOther fd => simp only [step] at h; split at h <;> simp at h
  | _ => simp [step] at h

/-- **C129** as long as the parameters are not changed while clones exist: setting up the keepalive of any existing clone, at the end of any history, uses the
parameters that are configured, if any -/
theorem C129_keepalive_partial {ops : List Op} (hc : CalmRun init ops) {w : W} {a : List Act} (h : run init ops = .ok (w, a)) {id : Nat} (hid : ∃ l, (id, l) ∈ w.clones) :
    step w (.kaAlloc id) = .ok (w, match w.main.kap with | some p => [.keepalive p] | none => []) := by
  have key : ∀ {ops : List Op} {w w' : W} {a : List Act}, Agree w → CalmRun w ops → run w ops = .ok (w', a) → Agree w' := by
    intro ops
    induction ops with
    | nil => intro w w' a A _ h; cases h; exact A
    | cons op ops ih =>
      intro w w' a A C h
      simp only [run, bind, Except.bind] at h
      split at h
      · simp at h
      · rename_i v hv
        split at h
        · simp at h
        · rename_i u hu
          cases h
          exact ih (step_agree A C.1 (w' := v.1) (a := v.2) hv) (C.2 v.1 v.2 hv) (w' := u.1) (a := u.2) hu
  have A := key ⟨fun p hp => by simp [init] at hp, fun p hp => by simp [init] at hp⟩ hc h
  obtain ⟨l, hl⟩ := hid
  have hg : getLine w.clones id = .ok w.main := by
    unfold getLine
    split
    · rename_i p hp
      rw [A.clones p (List.mem_of_find?_eq_some hp)]
    · rename_i hp
      have := List.find?_eq_none.1 hp (id, l) hl
      simp at this
  simp only [step, bind, Except.bind, hg]
  cases hk : w.main.kap with
  | none => rfl
  | some p => simp

/-- **C129 violated**: once the parameters of the line are changed or removed, setting up the keepalive of a connection of any clone that has the old ones uses
freed memory -/
theorem C129_stale_violated {w : W} {id p : Nat} {l : Line} (hl : getLine w.clones id = .ok l) (hk : l.kap = some p) (hp : p < w.next) (on : Bool) :
    ∃ w1, step w (.setKap on) = .ok (w1, []) ∧ step w1 (.kaAlloc id) = .error .badptr := by
  refine ⟨_, rfl, ?_⟩
  simp only [step, bind, Except.bind, hl, hk]
  rw [if_neg]
  cases on with
  | false => simp
  | true => simp only [if_true]; intro e; have := Option.some.inj e; omega

/-- such a state is reached by a line with keepalive and one connection -/
example : ∃ w a l, run init [.setKap true, .clone] = .ok (w, a) ∧ getLine w.clones 1 = .ok l ∧ l.kap = some 0 ∧ 0 < w.next :=
  ⟨_, _, _, rfl, rfl, rfl, by decide⟩

end Verif.Trace
