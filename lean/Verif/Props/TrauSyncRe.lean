import Verif.Proof.TrauSyncRe
/-!
# C154: changing the synchronisation pattern from within the frame call-back
-/
namespace Verif.TrauSync
open Verif
open Verif.RaaPrime (bind_ok bind_err)
set_option linter.unusedSimpArgs false
set_option maxRecDepth 10000

/-- The states an instance can get into, and the call-backs made, with a user `U` acting within the call-backs
and arbitrary admissible calls between them. -/
inductive ReachU (g : Nat → Nat → Byte) (U : User) : St → List Ev → Prop
  | alloc {i s} : alloc i = some s → ReachU g U s []
  | rx {s s' : St} {es es' : List Ev} (bits : List Byte) :
      ReachU g U s es → rxUbitsU g U s bits es = .ok (s', es') → ReachU g U s' es'
  | setPat {s s' : St} {es e : List Ev} {i : Nat} :
      ReachU g U s es → Admissible s (.setPat i) → setPat g s i = .ok (s', e) → ReachU g U s' es
  | setSecondary {s s' : St} {es e : List Ev} {i j : Nat} : ReachU g U s es → Admissible s (.setSecondary i j) →
      setSecondary g s i j = .ok (s', e) → ReachU g U s' es
  | timeout {s s' : St} {es e : List Ev} : ReachU g U s es → timeout g s = .ok (s', e) → ReachU g U s' es

private theorem step_inv {g : Nat → Nat → Byte} {s s' : St} {o : Op} {e : List Ev} (h : Inv s)
    (ha : Admissible s o) (hs : step g s o = .ok (s', e)) : Inv s' := by
  obtain ⟨s1, e1, h1, h2⟩ := step_ok g s o h ha
  rw [h1] at hs
  have := Except.ok.inj hs
  cases this
  exact h2

theorem ReachU.inv {g : Nat → Nat → Byte} {U : User} (hU : AdmUser U) {s : St} {es : List Ev}
    (h : ReachU g U s es) : Inv s := by
  induction h with
  | alloc h => exact Reach.inv (g := g) (.alloc h)
  | rx bits _ hs ih =>
    rw [rxUbitsU_eq g U hU _ ih] at hs
    have := Except.ok.inj hs
    cases this
    exact (runU_inv g U hU bits _ (ih.cinv _)).inv
  | setPat _ ha hs ih => exact step_inv (o := .setPat _) ih ha hs
  | setSecondary _ ha hs ih => exact step_inv (o := .setSecondary _ _) ih ha hs
  | timeout _ hs ih => exact step_inv (o := .timeout) ih trivial hs

private theorem stepU_es (g : Nat → Nat → Byte) (U : User) (c : Cfg) (b : Byte) :
    ∃ n, (stepU g U c b).es = c.es ++ n := by
  unfold stepU
  split
  · split
    · exact ⟨[], by simp⟩
    · unfold endU
      split
      · exact ⟨_, rfl⟩
      · split <;> exact ⟨_, rfl⟩
  · unfold acqU
    split
    · exact ⟨_, rfl⟩
    · exact ⟨[], by simp⟩

private theorem runU_es (g : Nat → Nat → Byte) (U : User) : ∀ (bs : List Byte) (c : Cfg),
    ∃ n, (runU g U c bs).es = c.es ++ n := by
  intro bs
  induction bs with
  | nil => intro c; exact ⟨[], by simp [runU]⟩
  | cons b bs ih =>
    intro c
    obtain ⟨n1, h1⟩ := stepU_es g U c b
    obtain ⟨n2, h2⟩ := ih (stepU g U c b)
    exact ⟨n1 ++ n2, by rw [← List.append_assoc, ← h1]; exact h2⟩

/-- **C154** (safety) Whatever admissible pattern changes the user makes within the call-backs and between the
calls: receiving bits fires no assertion, leaves no buffer, dereferences no missing pattern and terminates
(all of these would be an error). -/
theorem C154_no_fault (g : Nat → Nat → Byte) (U : User) (hU : AdmUser U) (s : St) (es : List Ev)
    (h : ReachU g U s es) (bits : List Byte) : ∃ s' new, rxUbitsU g U s bits es = .ok (s', es ++ new) := by
  obtain ⟨n, hn⟩ := runU_es g U bits ⟨s.fsm == .aligned, s, es⟩
  exact ⟨_, n, by rw [rxUbitsU_eq g U hU s (h.inv hU) bits es, hn]⟩

/-! ### A user who makes no changes -/

/-- a user who makes no changes -/
def silent : User := fun _ _ => []

theorem silent_adm : AdmUser silent := fun _ _ => trivial

private theorem tell_silent (s : St) (es : List Ev) (e : Ev) : tell silent s es e = s := by
  simp [tell, effU, silent]

private theorem stepU_silent (g : Nat → Nat → Byte) (s : St) (es : List Ev) (b : Byte) :
    stepU g silent ⟨s.fsm == .aligned, s, es⟩ b =
      ⟨(stepB g s b).1.fsm == .aligned, (stepB g s b).1, es ++ (stepB g s b).2⟩ := by
  unfold stepU stepB
  cases hf : s.fsm with
  | aligned =>
    simp only [hf, beq_self_eq_true, if_true]
    split
    · simp
    · unfold endU blockEnd
      simp only [tell_silent]
      split
      · simp
      · split
        · simp [hf]
        · simp
  | wait =>
    simp only [hf, show (Fsm.wait == Fsm.aligned) = false from rfl, Bool.false_eq_true, if_false]
    unfold acqU acquire
    simp only [tell_silent]
    split
    · simp
    · simp
  | lost =>
    simp only [hf, show (Fsm.lost == Fsm.aligned) = false from rfl, Bool.false_eq_true, if_false]
    unfold acqU acquire
    simp only [tell_silent]
    split
    · simp
    · simp

private theorem runU_silent (g : Nat → Nat → Byte) : ∀ (bs : List Byte) (s : St) (es : List Ev),
    runU g silent ⟨s.fsm == .aligned, s, es⟩ bs =
      ⟨(runB g s bs).1.fsm == .aligned, (runB g s bs).1, es ++ (runB g s bs).2⟩ := by
  intro bs
  induction bs with
  | nil => intro s es; simp [runU, runB]
  | cons b bs ih =>
    intro s es
    have := ih (stepB g s b).1 (es ++ (stepB g s b).2)
    unfold runU at this ⊢
    rw [List.foldl_cons, stepU_silent, this]
    simp [runB, List.append_assoc]

/-- **C154** (agreement) If the user makes no changes within the call-backs, the function behaves as in
`Verif/TrauSync.lean`, about which the other theorems are. -/
theorem C154_silent (g : Nat → Nat → Byte) (s : St) (h : Reach g s) (bits : List Byte) (es : List Ev) :
    ∃ s' new, rxUbits g s bits = .ok (s', new) ∧ rxUbitsU g silent s bits es = .ok (s', es ++ new) := by
  refine ⟨_, _, rxUbits_eq g s bits h.inv, ?_⟩
  rw [rxUbitsU_eq g silent silent_adm s h.inv, runU_silent]

/-! ### Chunking and the search for the new pattern -/

def lookU (x : M (St × List Ev)) : List Ev :=
  match x with
  | .ok r => r.2
  | .error _ => []

/-- a user who selects the FA pattern (64 bits, all of them fixed) when the second frame is delivered -/
def faUser : User := fun es _ => if es.length = 2 then [.setPat 9] else []

theorem faUser_adm : AdmUser faUser := by
  intro es s
  unfold faUser
  split
  · exact ⟨syncPatterns[9], rfl, trivial⟩
  · trivial

private theorem wit_one : lookU (rxUbitsU (fun _ _ => 0) faUser
    ⟨List.replicate HIST 1, 0, syncPatterns[5]? :: List.replicate 7 Option.none, 0, Fsm.wait, false, 0⟩
    (v110 ++ v110 ++ List.replicate 64 1) []) = [some v110, some v110, some (List.replicate 64 1)] := by
  decide +kernel

private theorem wit_two : lookU (do
    let (s, es) ← rxUbitsU (fun _ _ => 0) faUser
      ⟨List.replicate HIST 1, 0, syncPatterns[5]? :: List.replicate 7 Option.none, 0, Fsm.wait, false, 0⟩
      (v110 ++ v110) []
    rxUbitsU (fun _ _ => 0) faUser s (List.replicate 64 1) es) = [some v110, some v110] := by
  decide +kernel

/-- **C154 (violated)** A user who selects another pattern while a frame is delivered gets further blocks of
the same buffer as frames without the new pattern having been found (here 64 ones, where the FA pattern was
selected); and what is delivered depends on how the stream is split into calls. -/
theorem C154_new_pattern_violated : ∃ g U s, AdmUser U ∧ alloc 5 = some s ∧
    (∃ p, syncPatterns[9]? = some p ∧ ¬ Matches p (List.replicate 64 1)) ∧
    (∀ t, U [some v110, some v110] t = [.setPat 9]) ∧
    (∃ s', rxUbitsU g U s (v110 ++ v110 ++ List.replicate 64 1) [] =
      .ok (s', [some v110, some v110, some (List.replicate 64 1)])) ∧
    (∃ s1 s2 es1, rxUbitsU g U s (v110 ++ v110) [] = .ok (s1, es1) ∧
      rxUbitsU g U s1 (List.replicate 64 1) es1 = .ok (s2, [some v110, some v110])) := by
  refine ⟨fun _ _ => 0, faUser,
    ⟨List.replicate HIST 1, 0, syncPatterns[5]? :: List.replicate 7 Option.none, 0, Fsm.wait, false, 0⟩,
    faUser_adm, by decide +kernel, ⟨syncPatterns[9], rfl, by decide +kernel⟩, fun _ => rfl, ?_, ?_⟩
  · have hr : ReachU (fun _ _ => 0) faUser
      ⟨List.replicate HIST 1, 0, syncPatterns[5]? :: List.replicate 7 Option.none, 0, Fsm.wait, false, 0⟩ [] :=
      .alloc (i := 5) (by decide +kernel)
    obtain ⟨s', n, hs⟩ := C154_no_fault _ _ faUser_adm _ _ hr (v110 ++ v110 ++ List.replicate 64 1)
    have hw := wit_one
    rw [hs] at hw
    exact ⟨s', by rw [hs]; exact congrArg (fun x => Except.ok (s', x)) hw⟩
  · have hr : ReachU (fun _ _ => 0) faUser
      ⟨List.replicate HIST 1, 0, syncPatterns[5]? :: List.replicate 7 Option.none, 0, Fsm.wait, false, 0⟩ [] :=
      .alloc (i := 5) (by decide +kernel)
    obtain ⟨s1, n1, h1⟩ := C154_no_fault _ _ faUser_adm _ _ hr (v110 ++ v110)
    obtain ⟨s2, n2, h2⟩ := C154_no_fault _ _ faUser_adm _ _ (.rx _ hr h1) (List.replicate 64 1)
    have hw := wit_two
    rw [h1] at hw
    simp only [bind_ok] at hw
    rw [h2] at hw
    exact ⟨s1, s2, _, h1, by rw [h2]; exact congrArg (fun x => Except.ok (s2, x)) hw⟩

/-- A user who makes changes only when loss of alignment is reported. -/
def LossOnly (U : User) : Prop := ∀ es f s, U (es ++ [some f]) s = []

private theorem tell_frame {U : User} (hL : LossOnly U) (s : St) (es : List Ev) (f : List Byte) :
    tell U s es (some f) = s := by
  unfold tell effU
  rw [hL es f s]
  simp

private theorem tell_notAligned (U : User) (s : St) (es : List Ev) (e : Ev) (h : s.fsm ≠ .aligned) :
    (tell U s es e).fsm ≠ .aligned := by
  unfold tell effU
  split
  · exact h
  · simp [h]

private theorem stepU_loss (g : Nat → Nat → Byte) (U : User) (hL : LossOnly U) (c : Cfg)
    (h : c.al = (c.s.fsm == .aligned)) (b : Byte) :
    (stepU g U c b).al = ((stepU g U c b).s.fsm == .aligned) := by
  obtain ⟨al, s, es⟩ := c
  simp only at h
  unfold stepU
  cases al with
  | true =>
    simp only [if_true]
    split
    · exact h
    · unfold endU
      simp only [tell_frame hL]
      split
      · exact h
      · split
        · simp only
          split
          · rfl
          · rename_i hn
            exact (by simpa using hn)
        · exact h
  | false =>
    simp only [Bool.false_eq_true, if_false]
    unfold acqU
    simp only [tell_frame hL]
    split
    · rfl
    · exact h

private theorem runU_loss (g : Nat → Nat → Byte) (U : User) (hL : LossOnly U) : ∀ (bs : List Byte) (c : Cfg),
    c.al = (c.s.fsm == .aligned) → (runU g U c bs).al = ((runU g U c bs).s.fsm == .aligned)
  | [], _, h => h
  | b :: bs, c, h => runU_loss g U hL bs _ (stepU_loss g U hL c h b)

/-- **C154 (partial)** What is missing: changes made while a frame is delivered (see
`C154_new_pattern_violated`).  For a user who changes the patterns only when loss of alignment is reported, the
call-backs and the state do not depend on how the stream is split into calls. -/
theorem C154_chunking_partial (g : Nat → Nat → Byte) (U : User) (hU : AdmUser U) (hL : LossOnly U) (s : St)
    (es : List Ev) (h : ReachU g U s es) (a b : List Byte) :
    ∃ s1 es1 s2 es2, rxUbitsU g U s a es = .ok (s1, es1) ∧ rxUbitsU g U s1 b es1 = .ok (s2, es2) ∧
      rxUbitsU g U s (a ++ b) es = .ok (s2, es2) := by
  have hi := h.inv hU
  have hc := runU_inv g U hU a _ (hi.cinv es)
  have hal := runU_loss g U hL a ⟨s.fsm == .aligned, s, es⟩ rfl
  refine ⟨_, _, _, _, rxUbitsU_eq g U hU s hi a es, rxUbitsU_eq g U hU _ hc.inv b _, ?_⟩
  rw [rxUbitsU_eq g U hU s hi (a ++ b) es, runU_append]
  rw [← hal]

/-- a user who selects the 16 kbit/s pattern on the first loss -/
example : AdmUser (fun es _ => if es.getLast? = some none ∧ es.length < 6 then [.setPat 0] else []) ∧
    LossOnly (fun es _ => if es.getLast? = some none ∧ es.length < 6 then [.setPat 0] else []) := by
  refine ⟨?_, ?_⟩
  · intro es s
    show AdmOps _ (if _ then _ else _)
    split
    · exact ⟨syncPatterns[0], rfl, trivial⟩
    · trivial
  · intro es f s
    simp

/-! ### The call after the change -/

private theorem stepU_acted (g : Nat → Nat → Byte) (U : User) (c : Cfg) (hc : CInv c) (b : Byte)
    (hi : ∀ es, c.es = es → es ≠ [] → (∀ t, U es t ≠ []) → c.s.fsm ≠ .aligned) :
    ∀ es, (stepU g U c b).es = es → es ≠ [] → (∀ t, U es t ≠ []) → (stepU g U c b).s.fsm ≠ .aligned := by
  obtain ⟨al, s, es0⟩ := c
  have htell : ∀ (s : St) (e : Ev), (∀ t, U (es0 ++ [e]) t ≠ []) → (tell U s es0 e).fsm ≠ .aligned := by
    intro s e ht
    unfold tell effU
    rw [if_neg (ht s)]
    cases hh : s.fsm <;> simp [hh]
  intro es he hne ht
  unfold stepU at he ⊢
  cases al with
  | true =>
    simp only [if_true] at he ⊢
    split at he
    · rename_i h1
      simp only [h1, if_true]
      exact hi es he hne ht
    · rename_i h1
      simp only [h1, if_false]
      unfold endU at he ⊢
      split at he
      · rename_i h2
        rw [if_pos h2]
        subst he
        exact htell _ _ ht
      · rename_i h2
        rw [if_neg h2]
        split at he
        · rename_i h3
          rw [if_pos h3]
          simp only
          split
          · simp
          · rename_i hn; exact hn
        · rename_i h3
          rw [if_neg h3]
          subst he
          exact htell _ _ ht
  | false =>
    simp only [Bool.false_eq_true, if_false] at he ⊢
    unfold acqU at he ⊢
    split at he
    · rename_i h2
      rw [if_pos h2]
      subst he
      exact htell _ _ ht
    · rename_i h2
      rw [if_neg h2]
      exact hi es he hne ht

private theorem runU_acted (g : Nat → Nat → Byte) (U : User) (hU : AdmUser U) : ∀ (bs : List Byte) (c : Cfg),
    CInv c → (∀ es, c.es = es → es ≠ [] → (∀ t, U es t ≠ []) → c.s.fsm ≠ .aligned) →
    ∀ es, (runU g U c bs).es = es → es ≠ [] → (∀ t, U es t ≠ []) → (runU g U c bs).s.fsm ≠ .aligned
  | [], _, _, h => h
  | b :: bs, c, hc, h =>
    runU_acted g U hU bs _ (stepU_inv g U hU c hc b) (stepU_acted g U c hc b h)

private theorem reachU_acted {g : Nat → Nat → Byte} {U : User} (hU : AdmUser U) {s : St} {es : List Ev}
    (h : ReachU g U s es) : es ≠ [] → (∀ t, U es t ≠ []) → s.fsm ≠ .aligned := by
  induction h with
  | alloc h => intro h; exact absurd rfl h
  | @rx s s' es es' bits hr hs ih =>
    rw [rxUbitsU_eq g U hU _ (hr.inv hU)] at hs
    have := Except.ok.inj hs
    cases this
    intro hne ht
    exact runU_acted g U hU bits _ ((hr.inv hU).cinv _) (fun es' he hne' ht' => by subst he; exact ih hne' ht')
      _ rfl hne ht
  | @setPat s s' es e i hr ha hs ih =>
    intro _ _
    rw [setPat_eff g s (List.getElem?_eq_getElem (show i < syncPatterns.length from ha))] at hs
    have := Except.ok.inj hs
    cases this
    cases hh : s.fsm <;> simp [effU, hh]
  | @setSecondary s s' es e i j hr ha hs ih =>
    intro _ _
    obtain ⟨h0, h8, p, q, hp, hq, hl⟩ := ha
    rw [setSecondary_eff g s (hr.inv hU).pinv h0 h8 hp hq hl] at hs
    have := Except.ok.inj hs
    cases this
    cases hh : s.fsm <;> simp [effU, hh]
  | @timeout s s' es e hr hs ih =>
    intro hne ht
    have hf := ih hne ht
    unfold timeout at hs
    split at hs
    · unfold stateChg at hs
      split at hs
      · have := Except.ok.inj hs
        cases this
        simp
      · have := Except.ok.inj hs
        cases this
        exact hf
    · have := Except.ok.inj hs
      cases this
      exact hf

private theorem search_first (g : Nat → Nat → Byte) (U : User) : ∀ (bs : List Byte) (s : St) (es : List Ev)
    (e : Ev) (rest : List Ev), (runU g U ⟨false, s, es⟩ bs).es = es ++ e :: rest →
    ∃ w, e = some w ∧ Matches (prim s) w := by
  intro bs
  induction bs with
  | nil =>
    intro s es e rest h
    exact absurd (congrArg List.length h) (by simp [runU])
  | cons b bs ih =>
    intro s es e rest h
    have hcons : runU g U ⟨false, s, es⟩ (b :: bs) = runU g U (stepU g U ⟨false, s, es⟩ b) bs := rfl
    rw [hcons] at h
    have hst : stepU g U ⟨false, s, es⟩ b =
      acqU g U { s with hist := s.hist.set s.idx b, idx := (s.idx + 1) % HIST } es := rfl
    rw [hst] at h
    generalize hs1 : ({ s with hist := s.hist.set s.idx b, idx := (s.idx + 1) % HIST } : St) = s1 at *
    have hp : prim s1 = prim s := by subst hs1; rfl
    unfold acqU at h
    split at h
    · rename_i hm
      obtain ⟨n, hn⟩ := runU_es g U bs ⟨(tell U (aligned g s1) es (some (win s1 (N s1)))).fsm == .aligned,
        tell U (aligned g s1) es (some (win s1 (N s1))), es ++ [some (win s1 (N s1))]⟩
      simp only at h hn
      rw [hn, List.append_assoc] at h
      have := List.append_cancel_left h
      simp only [List.cons_append, List.nil_append, List.cons.injEq] at this
      exact ⟨_, this.1.symm, by rw [← hp]; exact hm⟩
    · obtain ⟨w, h1, h2⟩ := ih s1 es e rest h
      exact ⟨w, h1, by rw [← hp]; exact h2⟩

/-- **C154 (partial)** What is missing: the rest of the buffer being processed (see
`C154_new_pattern_violated`).  If the last call-back changed the patterns (whatever was called since, as long
as no further call-back was made), then the next *call* searches: its first call-back is a frame matching the
primary pattern now selected. -/
theorem C154_next_call_partial (g : Nat → Nat → Byte) (U : User) (hU : AdmUser U) (s s' : St) (es : List Ev)
    (h : ReachU g U s es) (hne : es ≠ []) (hact : ∀ t, U es t ≠ []) (bits : List Byte) (e : Ev) (rest : List Ev)
    (hrx : rxUbitsU g U s bits es = .ok (s', es ++ e :: rest)) :
    ∃ p w, s.pats[0]? = some (some p) ∧ e = some w ∧ Matches p w := by
  have hi := h.inv hU
  have hf := reachU_acted hU h hne hact
  rw [rxUbitsU_eq g U hU s hi, show (s.fsm == .aligned) = false by simpa using hf] at hrx
  have hes := (Prod.mk.inj (Except.ok.inj hrx)).2
  obtain ⟨w, h1, h2⟩ := search_first g U bits s es e rest hes
  obtain ⟨p, r, hp⟩ := hi.prim
  exact ⟨prim s, w, by simp [prim, hp], h1, h2⟩

/-- the bits of the FA pattern -/
def faBits : List Byte := pbit2ubit [0x3e, 0x37, 0x50, 0x96, 0xc1, 0xc8, 0xaf, 0x69]

private theorem wit_a : lookU (rxUbitsU (fun _ _ => 0) faUser
    ⟨List.replicate HIST 1, 0, syncPatterns[5]? :: List.replicate 7 Option.none, 0, Fsm.wait, false, 0⟩
    (v110 ++ v110) []) = [some v110, some v110] := by
  decide +kernel

private theorem wit_fa : lookU (do
    let (s, es) ← rxUbitsU (fun _ _ => 0) faUser
      ⟨List.replicate HIST 1, 0, syncPatterns[5]? :: List.replicate 7 Option.none, 0, Fsm.wait, false, 0⟩
      (v110 ++ v110) []
    rxUbitsU (fun _ _ => 0) faUser s faBits es) = [some v110, some v110, some faBits] := by
  decide +kernel

/-- Such histories exist. -/
theorem C154_next_call_exists : ∃ g U s s' es, AdmUser U ∧ ReachU g U s es ∧ es ≠ [] ∧ (∀ t, U es t ≠ []) ∧
    rxUbitsU g U s faBits es = .ok (s', es ++ [some faBits]) := by
  have hr : ReachU (fun _ _ => 0) faUser
    ⟨List.replicate HIST 1, 0, syncPatterns[5]? :: List.replicate 7 Option.none, 0, Fsm.wait, false, 0⟩ [] :=
    .alloc (i := 5) (by decide +kernel)
  obtain ⟨s1, n1, h1⟩ := C154_no_fault _ _ faUser_adm _ _ hr (v110 ++ v110)
  obtain ⟨s3, n3, h3⟩ := C154_no_fault _ _ faUser_adm _ _ (.rx _ hr h1) faBits
  have ha := wit_a
  have hw := wit_fa
  rw [h1] at hw ha
  simp only [bind_ok] at hw
  rw [h3] at hw
  have hn1 : n1 = [some v110, some v110] := ha
  subst hn1
  replace hw : [some v110, some v110] ++ n3 = [some v110, some v110] ++ [some faBits] := hw
  have hn3 := List.append_cancel_left hw
  subst hn3
  exact ⟨_, faUser, s1, s3, _, faUser_adm, .rx _ hr h1, by simp, fun t => by simp [faUser], h3⟩

end Verif.TrauSync
