import Verif.Spec.IpaKeepalive
/-!
# C41: keepalive; IPA message headers
-/
set_option maxRecDepth 10000
namespace Verif.Ipa

/-! ## message headers -/

theorem header_len {n : Nat} (h : n < 65536) : (BitVec.ofNat 8 (n / 256)).toNat * 256 + (BitVec.ofNat 8 n).toNat = n := by
  simp only [BitVec.toNat_ofNat]
  omega

/-- a stream of messages built with `ipa_msg_push_header`, with payloads of less than 2^16 octets, can be split again into
protocols and payloads -/
theorem ipa_header_roundtrip (ms : List (Byte × List Byte)) (h : ∀ m ∈ ms, m.2.length < 65536) (n : Nat) (hn : ms.length ≤ n) :
    splitIpa n (ms.flatMap fun m => pushHeader m.2 m.1) = some ms := by
  induction ms generalizing n with
  | nil => cases n <;> rfl
  | cons m ms ih =>
    cases n with
    | zero => simp at hn
    | succ n =>
      have hl := header_len (h m List.mem_cons_self)
      have ih' := ih (fun x hx => h x (List.mem_cons_of_mem _ hx)) n (by simpa using hn)
      simp only [List.flatMap_cons, pushHeader, List.cons_append, splitIpa, hl]
      rw [if_pos (by simp), List.drop_left, List.take_left]
      simp only [List.flatMap_def, pushHeader] at ih'
      rw [List.flatMap_def, ih']
      rfl

/-- a longer payload is announced with a wrong length -/
theorem ipa_header_long_violated : ∃ d : List Byte, ∀ n, splitIpa n (pushHeader d 0xfe) ≠ some [(0xfe, d)] := by
  refine ⟨List.replicate 65536 0, ?_⟩
  intro n
  cases n with
  | zero => intro h; cases h
  | succ n =>
    have e : pushHeader (List.replicate 65536 0) 0xfe = (0 : Byte) :: 0 :: 0xfe :: List.replicate 65536 0 := by
      simp only [pushHeader, List.length_replicate]
      rfl
    rw [e]
    simp only [splitIpa]
    have h0 : (0 : Byte).toNat * 256 + (0 : Byte).toNat = 0 := rfl
    rw [h0, if_pos (Nat.zero_le _), List.take_zero, List.drop_zero]
    intro h
    cases hs : splitIpa n (List.replicate 65536 0) with
    | none => rw [hs] at h; cases h
    | some l =>
      rw [hs] at h
      simp only [Option.map_some, Option.some.injEq, List.cons.injEq, Prod.mk.injEq] at h
      have := h.1.2
      have h2 := congrArg List.length this
      rw [List.length_replicate] at h2
      simp at h2

example : splitIpa 9 (pushHeader [1, 2, 3] 0xfe ++ pushHeader [] 0 ++ pushHeader [7] 0xff) = some [(0xfe, [1, 2, 3]), (0, []), (0xff, [7])] := by
  decide +kernel

namespace Ka

theorem bind_ok {α β : Type} (x : α) (f : α → M β) : (Except.ok x >>= f) = f x := rfl
theorem use_ok {f : Fsm} (h : f.gone = false) : use f = .ok () := by simp [use, h]

theorem snocRec {α : Type} {P : List α → Prop} (nil : P []) (append_singleton : ∀ l a, P l → P (l ++ [a])) (l : List α) : P l := by
  have : ∀ l : List α, P l.reverse := by
    intro l
    induction l with
    | nil => exact nil
    | cons a l ih => rw [List.reverse_cons]; exact append_singleton _ _ ih
  have h := this l.reverse
  rwa [List.reverse_reverse] at h

theorem know_append (a b : List (Nat × Ev)) : know (a ++ b) = b.foldl Know.next (know a) := by
  simp [know, List.foldl_append]

theorem know_snoc (a : List (Nat × Ev)) (e : Nat × Ev) : know (a ++ [e]) = (know a).next e := by
  rw [know_append]; rfl

/-- when an event may happen, given what happened before -/
def okEv (interval wait : Nat) (pre : List (Nat × Ev)) : Nat × Ev → Prop
  | (t, .timeout) => ∃ t0, know pre = .asked t0 false ∧ t0 + wait * SEC ≤ t ∧ 0 < wait
  | (t, .ping _ m) => m = genPing ∧ ((∃ pre', pre = pre' ++ [(t, .start)] ∧ know pre' = .stopped) ∨
      (∃ t0, know pre = .answered t0 ∧ t0 + interval * SEC ≤ t ∧ 0 < interval))
  | (_, .term) => ∃ t, (t, .timeout) ∈ pre
  | _ => True

def okLog (interval wait : Nat) (log : List (Nat × Ev)) : Prop :=
  ∀ pre e post, log = pre ++ e :: post → okEv interval wait pre e

theorem okLog_snoc {i w : Nat} {log : List (Nat × Ev)} (h : okLog i w log) {e : Nat × Ev} (he : okEv i w log e) : okLog i w (log ++ [e]) := by
  intro pre x post heq
  rcases List.eq_nil_or_concat post with hp | ⟨p', y, hp⟩
  · subst hp
    have := List.append_inj' heq rfl
    rw [← this.1]
    have h2 := this.2
    simp only [List.cons.injEq, and_true] at h2
    rw [← h2]; exact he
  · rw [List.concat_eq_append] at hp
    subst hp
    rw [← List.cons_append, ← List.append_assoc] at heq
    have := (List.append_inj' heq rfl).1
    exact h pre x p' this

structure KInv (f : Fsm) (log : List (Nat × Ev)) : Prop where
  ok : okLog f.interval f.wait log
  time : ∀ x ∈ log, x.1 ≤ f.now
  gone : f.gone = true → f.timer = none
  st : f.gone = false → match f.state with
    | .init => know log = .stopped ∧ f.timer = none
    | .waitResp => ∃ t0 late, know log = .asked t0 late ∧
        f.timer = if late then none else if 0 < f.wait then some (t0 + f.wait * SEC, .noPong) else none
    | .idle => ∃ t0, know log = .answered t0 ∧ f.timer = if 0 < f.interval then some (t0 + f.interval * SEC, .nextPing) else none
  cb : f.inCb = true → ∃ t, (t, .timeout) ∈ log
  cbGone : f.inCb = true → f.gone = false

/-- a PING is sent and the FSM waits -/
theorem inv_ask {f : Fsm} {log : List (Nat × Ev)} (h : KInv f log) (hg : f.gone = false) (c : Bool)
    (he : okEv f.interval f.wait log (f.now, .ping c genPing)) :
    KInv { f with state := .waitResp, timer := if f.wait > 0 then some (f.now + f.wait * SEC, .noPong) else none } (log ++ [(f.now, .ping c genPing)]) := by
  refine ⟨okLog_snoc h.ok he, ?_, ?_, ?_, ?_, h.cbGone⟩
  · intro x hx
    rcases List.mem_append.1 hx with hx | hx
    · exact h.time x hx
    · simp only [List.mem_singleton] at hx; subst hx; exact Nat.le_refl _
  · intro e; simp only at e; rw [hg] at e; cases e
  · intro _
    refine ⟨f.now, false, ?_, rfl⟩
    rw [know_snoc]
    cases know log <;> rfl
  · intro hc
    obtain ⟨t, ht⟩ := h.cb hc
    exact ⟨t, List.mem_append_left _ ht⟩

theorem stateChg_wait {f : Fsm} (hp : permitted f.state .waitResp = true) (hs : f.peer = .generic → f.sendFn = true) (secs : Nat) (t : T) :
    ∃ c, stateChg f .waitResp secs t =
      .ok ({ f with state := .waitResp, timer := if secs > 0 then some (f.now + secs * SEC, t) else none }, [.ping c genPing]) := by
  unfold stateChg
  rw [if_pos hp]
  simp only [if_true, onenter]
  by_cases hf : f.sendFn = true
  · exact ⟨true, by rw [if_pos hf]; rfl⟩
  · have hn : ¬ f.peer = .generic := fun e => hf (hs e)
    exact ⟨false, by rw [if_neg hf, if_neg hn]; rfl⟩

theorem inv_mono {f : Fsm} {log : List (Nat × Ev)} (h : KInv f log) {e : Ev} (hk : (know log).next (f.now, e) = know log)
    (hok : okEv f.interval f.wait log (f.now, e)) : KInv f (log ++ [(f.now, e)]) := by
  refine ⟨okLog_snoc h.ok hok, ?_, h.gone, ?_, ?_, h.cbGone⟩
  · intro x hx
    rcases List.mem_append.1 hx with hx | hx
    · exact h.time x hx
    · simp only [List.mem_singleton] at hx; subst hx; exact Nat.le_refl _
  · intro hg
    rw [know_snoc, hk]
    exact h.st hg
  · intro hc
    obtain ⟨t, ht⟩ := h.cb hc
    exact ⟨t, List.mem_append_left _ ht⟩

theorem step_inv {f : Fsm} {log : List (Nat × Ev)} {op : Op} (h : KInv f log) (ha : Adm f op) :
    ∃ f' a, step f op = .ok (f', a) ∧ KInv f' (log ++ a.map fun e => (f'.now, e)) ∧ f'.interval = f.interval ∧ f'.wait = f.wait := by
  have mem_mono : ∀ (b : List (Nat × Ev)), (∃ t, (t, Ev.timeout) ∈ log) → ∃ t, (t, Ev.timeout) ∈ log ++ b := by
    rintro b ⟨t, ht⟩
    exact ⟨t, List.mem_append_left _ ht⟩
  cases op with
  | start =>
    obtain ⟨hg, hs⟩ := ha
    simp only [step, start, use_ok hg, bind_ok]
    cases hst : f.state with
    | init =>
      have hk := h.st hg
      rw [hst] at hk
      obtain ⟨c, hc⟩ := stateChg_wait (f := f) (by rw [hst]; rfl) hs f.wait .noPong
      rw [hc]
      refine ⟨_, _, rfl, ?_, rfl, rfl⟩
      have h1 := inv_mono h (e := .start) (by rw [hk.1]; rfl) trivial
      have h2 := inv_ask h1 hg c ⟨rfl, .inl ⟨log, rfl, hk.1⟩⟩
      simpa [List.append_assoc] using h2
    | idle =>
      refine ⟨_, _, rfl, inv_mono h (e := .start) (by cases know log <;> rfl) trivial, rfl, rfl⟩
    | waitResp =>
      refine ⟨_, _, rfl, inv_mono h (e := .start) (by cases know log <;> rfl) trivial, rfl, rfl⟩
  | stop =>
    have hg : f.gone = false := ha
    have hp : permitted f.state .init = true := by cases f.state <;> rfl
    simp only [step, stop, use_ok hg, bind_ok, stateChg, if_pos hp]
    refine ⟨{ f with state := .init, timer := none }, [.stop], rfl, ⟨okLog_snoc h.ok trivial, ?_, fun _ => rfl, ?_, fun hc => mem_mono _ (h.cb hc), h.cbGone⟩, rfl, rfl⟩
    · intro x hx
      rcases List.mem_append.1 hx with hx | hx
      · exact h.time x hx
      · simp only [List.map_cons, List.map_nil, List.mem_singleton] at hx; subst hx; exact Nat.le_refl _
    · intro _
      refine ⟨?_, rfl⟩
      simp only [List.map_cons, List.map_nil]
      rw [know_snoc]
      cases know log <;> rfl
  | pong =>
    have hg : f.gone = false := ha
    simp only [step, pong, use_ok hg, bind_ok]
    cases hst : f.state with
    | init =>
      have hk := h.st hg
      rw [hst] at hk
      refine ⟨_, _, rfl, inv_mono h (e := .pong) (by rw [hk.1]; rfl) trivial, rfl, rfl⟩
    | idle =>
      have hk := h.st hg
      rw [hst] at hk
      obtain ⟨t0, hk, _⟩ := hk
      refine ⟨_, _, rfl, inv_mono h (e := .pong) (by rw [hk]; rfl) trivial, rfl, rfl⟩
    | waitResp =>
      have hk := h.st hg
      rw [hst] at hk
      obtain ⟨t0, late, hk, _⟩ := hk
      have hp : permitted f.state .idle = true := by rw [hst]; rfl
      simp only [stateChg, if_pos hp]
      refine ⟨{ f with state := .idle, timer := if f.interval > 0 then some (f.now + f.interval * SEC, .nextPing) else none }, [.pong], rfl,
        ⟨okLog_snoc h.ok trivial, ?_, ?_, ?_, fun hc => mem_mono _ (h.cb hc), h.cbGone⟩, rfl, rfl⟩
      · intro x hx
        rcases List.mem_append.1 hx with hx | hx
        · exact h.time x hx
        · simp only [List.map_cons, List.map_nil, List.mem_singleton] at hx; subst hx; exact Nat.le_refl _
      · intro e; simp only at e; rw [hg] at e; cases e
      · intro _
        refine ⟨f.now, ?_, rfl⟩
        simp only [List.map_cons, List.map_nil]
        rw [know_snoc, hk]; rfl
  | fire =>
    obtain ⟨hg, hcb, hs, e, t, ht, hd⟩ := ha
    have hk := h.st hg
    simp only [step, fire, use_ok hg, bind_ok, ht]
    cases hst : f.state with
    | init => rw [hst] at hk; rw [hk.2] at ht; cases ht
    | idle =>
      rw [hst] at hk
      obtain ⟨t0, hk, htm⟩ := hk
      rw [htm] at ht
      split at ht
      · rename_i hpos
        simp only [Option.some.injEq, Prod.mk.injEq] at ht
        obtain ⟨e1, e2⟩ := ht
        subst e1; subst e2
        simp only
        obtain ⟨c, hc⟩ := stateChg_wait (f := { f with timer := none }) (by simp only [hst]; rfl) hs f.wait .noPong
        simp only [hst] at hc
        rw [hc]
        refine ⟨_, _, rfl, ?_, rfl, rfl⟩
        exact inv_ask h hg c ⟨rfl, .inr ⟨t0, hk, hd, hpos⟩⟩
      · cases ht
    | waitResp =>
      rw [hst] at hk
      obtain ⟨t0, late, hk, htm⟩ := hk
      rw [htm] at ht
      cases late with
      | true => cases ht
      | false =>
        simp only [Bool.false_eq_true, if_false] at ht
        split at ht
        · rename_i hpos
          simp only [Option.some.injEq, Prod.mk.injEq] at ht
          obtain ⟨e1, e2⟩ := ht
          subst e1; subst e2
          simp only
          have hok1 : okLog f.interval f.wait (log ++ [(f.now, .timeout)]) := okLog_snoc h.ok ⟨t0, hk, hd, hpos⟩
          have htm1 : ∀ x ∈ log ++ [(f.now, Ev.timeout)], x.1 ≤ f.now := by
            intro x hx
            rcases List.mem_append.1 hx with hx | hx
            · exact h.time x hx
            · simp only [List.mem_singleton] at hx; subst hx; exact Nat.le_refl _
          by_cases hc : f.timeoutCb = true
          · rw [if_pos hc]
            refine ⟨{ f with timer := none, inCb := true }, [.timeout], by simp only [hst], ⟨hok1, htm1, fun _ => rfl, ?_, ?_, fun _ => hg⟩, rfl, rfl⟩
            · intro _
              simp only [hst]
              refine ⟨t0, true, ?_, rfl⟩
              simp only [List.map_cons, List.map_nil]
              rw [know_snoc, hk]; rfl
            · intro _; exact ⟨f.now, by simp⟩
          · rw [if_neg hc]
            refine ⟨{ f with timer := none, gone := true }, [.timeout, .term], by simp only [hst], ⟨?_, ?_, fun _ => rfl, ?_, ?_, ?_⟩, rfl, rfl⟩
            · simp only [List.map_cons, List.map_nil]
              have := okLog_snoc hok1 (e := (f.now, .term)) ⟨f.now, by simp⟩
              simpa [List.append_assoc] using this
            · intro x hx
              simp only [List.map_cons, List.map_nil, List.mem_append, List.mem_cons, List.not_mem_nil, or_false] at hx
              rcases hx with hx | hx | hx
              · exact h.time x hx
              · subst hx; exact Nat.le_refl _
              · subst hx; exact Nat.le_refl _
            · intro e; cases e
            · intro e; simp only [hcb] at e; cases e
            · intro e; simp only [hcb] at e; cases e
        · cases ht
  | cbReturn rc =>
    have hc : f.inCb = true := ha
    have hg := h.cbGone hc
    simp only [step, cbReturn, if_pos hc]
    by_cases hr : rc = 1
    · rw [if_pos hr]
      simp only [use_ok hg, bind_ok]
      refine ⟨{ f with inCb := false, timer := none, gone := true }, [.term], rfl, ⟨okLog_snoc h.ok (h.cb hc), ?_, fun _ => rfl, ?_, ?_, ?_⟩, rfl, rfl⟩
      · intro x hx
        rcases List.mem_append.1 hx with hx | hx
        · exact h.time x hx
        · simp only [List.map_cons, List.map_nil, List.mem_singleton] at hx; subst hx; exact Nat.le_refl _
      · intro e; cases e
      · intro e; cases e
      · intro e; cases e
    · rw [if_neg hr]
      refine ⟨{ f with inCb := false }, [], rfl, ?_, rfl, rfl⟩
      simp only [List.map_nil, List.append_nil]
      exact ⟨h.ok, h.time, h.gone, h.st, (fun e => by cases e), (fun e => by cases e)⟩
  | elapse d =>
    refine ⟨{ f with now := f.now + d }, [], rfl, ?_, rfl, rfl⟩
    simp only [List.map_nil, List.append_nil]
    exact ⟨h.ok, fun x hx => Nat.le_trans (h.time x hx) (Nat.le_add_right _ _), h.gone, h.st, h.cb, h.cbGone⟩
  | setSend b =>
    have hg : f.gone = false := ha
    refine ⟨{ f with sendFn := b }, [], by simp only [step, use_ok hg, bind_ok], ?_, rfl, rfl⟩
    simp only [List.map_nil, List.append_nil]
    exact ⟨h.ok, h.time, h.gone, h.st, h.cb, h.cbGone⟩
  | setTimeout b =>
    have hg : f.gone = false := ha
    refine ⟨{ f with timeoutCb := b }, [], by simp only [step, use_ok hg, bind_ok], ?_, rfl, rfl⟩
    simp only [List.map_nil, List.append_nil]
    exact ⟨h.ok, h.time, h.gone, h.st, h.cb, h.cbGone⟩

theorem run_inv {f : Fsm} {log : List (Nat × Ev)} {ops : List Op} (h : KInv f log) (ha : AdmRun f ops) :
    ∃ f' tr, run f ops = .ok (f', tr) ∧ KInv f' (log ++ tr) ∧ f'.interval = f.interval ∧ f'.wait = f.wait := by
  induction ops generalizing f log with
  | nil => exact ⟨f, [], rfl, by simpa using h, rfl, rfl⟩
  | cons op ops ih =>
    obtain ⟨f1, a, h1, hi, e1, e2⟩ := step_inv h ha.1
    obtain ⟨f2, tr, h2, hi2, e3, e4⟩ := ih hi (ha.2 f1 a h1)
    refine ⟨f2, (a.map fun e => (f1.now, e)) ++ tr, by simp only [run, h1, bind_ok, h2], ?_, e3.trans e1, e4.trans e2⟩
    rw [← List.append_assoc]; exact hi2

theorem inv_alloc (i w : Nat) (p : Peer) (now : Nat) : KInv (alloc i w p now) [] := by
  refine ⟨?_, ?_, fun _ => rfl, fun _ => ⟨rfl, rfl⟩, (fun e => by cases e), (fun e => by cases e)⟩
  · intro pre e post h
    cases pre <;> cases h
  · intro x hx; cases hx

/-! ### from knowledge to the events -/

theorem know_asked {tr : List (Nat × Ev)} {t0 : Nat} {late : Bool} (h : know tr = .asked t0 late) :
    ∃ pre c m post, tr = pre ++ (t0, .ping c m) :: post ∧ (∀ x ∈ post, x.2 ≠ .pong ∧ x.2 ≠ .stop ∧ x.2.isPing = false) ∧
      (late = true ↔ ∃ t, (t, .timeout) ∈ post) := by
  induction tr using snocRec generalizing t0 late with
  | nil => cases h
  | append_singleton tr e ih =>
    rw [know_snoc] at h
    obtain ⟨t, e⟩ := e
    have carry : ∀ {l : Bool}, know tr = .asked t0 l → e ≠ .pong → e ≠ .stop → e.isPing = false → (late = true ↔ l = true ∨ e = .timeout) →
        ∃ pre c m post, tr ++ [(t, e)] = pre ++ (t0, .ping c m) :: post ∧ (∀ x ∈ post, x.2 ≠ .pong ∧ x.2 ≠ .stop ∧ x.2.isPing = false) ∧
          (late = true ↔ ∃ t, (t, .timeout) ∈ post) := by
      intro l hk n1 n2 n3 n4
      obtain ⟨pre, c, m, post, hp, ha, hb⟩ := ih hk
      refine ⟨pre, c, m, post ++ [(t, e)], by rw [hp]; simp, ?_, ?_⟩
      · intro x hx
        rcases List.mem_append.1 hx with hx | hx
        · exact ha x hx
        · simp only [List.mem_singleton] at hx; subst hx; exact ⟨n1, n2, n3⟩
      · rw [n4, hb]
        constructor
        · rintro (⟨t', h'⟩ | h')
          · exact ⟨t', List.mem_append_left _ h'⟩
          · subst h'; exact ⟨t, by simp⟩
        · rintro ⟨t', h'⟩
          rcases List.mem_append.1 h' with h' | h'
          · exact .inl ⟨t', h'⟩
          · simp only [List.mem_singleton, Prod.mk.injEq] at h'
            exact .inr h'.2.symm
    cases e with
    | ping c m =>
      have h' : Know.asked t false = .asked t0 late := by cases hk : know tr <;> rw [hk] at h <;> exact h
      cases h'
      exact ⟨tr, c, m, [], rfl, (fun x hx => by cases hx), by simp⟩
    | start =>
      cases hk : know tr with
      | stopped => rw [hk] at h; cases h
      | answered t => rw [hk] at h; cases h
      | asked t1 l => rw [hk] at h; cases h; exact carry hk (by simp) (by simp) rfl (by simp)
    | term =>
      cases hk : know tr with
      | stopped => rw [hk] at h; cases h
      | answered t => rw [hk] at h; cases h
      | asked t1 l => rw [hk] at h; cases h; exact carry hk (by simp) (by simp) rfl (by simp)
    | timeout =>
      cases hk : know tr with
      | stopped => rw [hk] at h; cases h
      | answered t => rw [hk] at h; cases h
      | asked t1 l => rw [hk] at h; cases h; exact carry hk (by simp) (by simp) rfl (by simp)
    | stop => cases hk : know tr <;> rw [hk] at h <;> cases h
    | pong => cases hk : know tr <;> rw [hk] at h <;> cases h

theorem know_answered {tr : List (Nat × Ev)} {t0 : Nat} (h : know tr = .answered t0) :
    ∃ pre post, tr = pre ++ (t0, .pong) :: post ∧ (∃ t1 late, know pre = .asked t1 late) ∧
      (∀ x ∈ post, x.2 ≠ .stop ∧ x.2.isPing = false) := by
  induction tr using snocRec generalizing t0 with
  | nil => cases h
  | append_singleton tr e ih =>
    rw [know_snoc] at h
    obtain ⟨t, e⟩ := e
    have carry : know tr = .answered t0 → e ≠ .stop → e.isPing = false →
        ∃ pre post, tr ++ [(t, e)] = pre ++ (t0, .pong) :: post ∧ (∃ t1 late, know pre = .asked t1 late) ∧
          (∀ x ∈ post, x.2 ≠ .stop ∧ x.2.isPing = false) := by
      intro hk n2 n3
      obtain ⟨pre, post, hp, ha, hb⟩ := ih hk
      refine ⟨pre, post ++ [(t, e)], by rw [hp]; simp, ha, ?_⟩
      intro x hx
      rcases List.mem_append.1 hx with hx | hx
      · exact hb x hx
      · simp only [List.mem_singleton] at hx; subst hx; exact ⟨n2, n3⟩
    cases e with
    | ping c m => cases hk : know tr <;> rw [hk] at h <;> cases h
    | stop => cases hk : know tr <;> rw [hk] at h <;> cases h
    | pong =>
      cases hk : know tr with
      | stopped => rw [hk] at h; cases h
      | answered t' => rw [hk] at h; cases h; exact carry hk (by simp) rfl
      | asked t1 l =>
        rw [hk] at h; cases h
        exact ⟨tr, [], rfl, ⟨t1, l, hk⟩, fun x hx => by cases hx⟩
    | start =>
      cases hk : know tr with
      | stopped => rw [hk] at h; cases h
      | asked t' l => rw [hk] at h; cases h
      | answered t1 => rw [hk] at h; cases h; exact carry hk (by simp) rfl
    | term =>
      cases hk : know tr with
      | stopped => rw [hk] at h; cases h
      | asked t' l => rw [hk] at h; cases h
      | answered t1 => rw [hk] at h; cases h; exact carry hk (by simp) rfl
    | timeout =>
      cases hk : know tr with
      | stopped => rw [hk] at h; cases h
      | asked t' l => rw [hk] at h; cases h
      | answered t1 => rw [hk] at h; cases h; exact carry hk (by simp) rfl

/-- and back: the last PING and nothing relevant since -/
theorem know_of_ping (pre post : List (Nat × Ev)) (t0 : Nat) (c : Bool) (m : List Byte)
    (h : ∀ x ∈ post, x.2 ≠ .pong ∧ x.2 ≠ .stop ∧ x.2.isPing = false) :
    know (pre ++ (t0, .ping c m) :: post) = .asked t0 (post.any fun x => decide (x.2 = .timeout)) := by
  have : pre ++ (t0, Ev.ping c m) :: post = (pre ++ [(t0, .ping c m)]) ++ post := by simp
  rw [this, know_append, know_snoc]
  have h0 : (know pre).next (t0, .ping c m) = .asked t0 false := by cases know pre <;> rfl
  rw [h0]
  have key : ∀ (post : List (Nat × Ev)) (l : Bool), (∀ x ∈ post, x.2 ≠ .pong ∧ x.2 ≠ .stop ∧ x.2.isPing = false) →
      post.foldl Know.next (.asked t0 l) = .asked t0 (l || post.any fun x => decide (x.2 = .timeout)) := by
    intro post
    induction post with
    | nil => intro l _; simp
    | cons x post ih =>
      intro l h
      obtain ⟨t, e⟩ := x
      obtain ⟨n1, n2, n3⟩ := h (t, e) List.mem_cons_self
      have ih' := fun l => ih l (fun y hy => h y (List.mem_cons_of_mem _ hy))
      cases e with
      | pong => exact absurd rfl n1
      | stop => exact absurd rfl n2
      | ping c m => cases n3
      | start => simp only [List.foldl_cons, Know.next, ih', List.any_cons]; simp
      | term => simp only [List.foldl_cons, Know.next, ih', List.any_cons]; simp
      | timeout => simp only [List.foldl_cons, Know.next, ih', List.any_cons]; simp
  rw [key post false h, Bool.false_or]

theorem know_of_pong (pre post : List (Nat × Ev)) (t0 t1 : Nat) (late : Bool) (hp : know pre = .asked t1 late)
    (h : ∀ x ∈ post, x.2 ≠ .stop ∧ x.2.isPing = false) :
    know (pre ++ (t0, .pong) :: post) = .answered t0 := by
  have : pre ++ (t0, Ev.pong) :: post = (pre ++ [(t0, .pong)]) ++ post := by simp
  rw [this, know_append, know_snoc, hp]
  show post.foldl Know.next (.answered t0) = _
  induction post with
  | nil => rfl
  | cons x post ih =>
    obtain ⟨t, e⟩ := x
    obtain ⟨n2, n3⟩ := h (t, e) List.mem_cons_self
    rw [List.foldl_cons]
    have : Know.next (.answered t0) (t, e) = .answered t0 := by
      cases e with
      | stop => exact absurd rfl n2
      | ping c m => cases n3
      | _ => rfl
    rw [this]
    exact ih (fun y hy => h y (List.mem_cons_of_mem _ hy)) (by simp)

theorem know_stop (pre post : List (Nat × Ev)) (t0 : Nat) (h : ∀ x ∈ post, x.2.isPing = false) :
    know (pre ++ (t0, .stop) :: post) = .stopped := by
  have : pre ++ (t0, Ev.stop) :: post = (pre ++ [(t0, .stop)]) ++ post := by simp
  rw [this, know_append, know_snoc]
  have h0 : (know pre).next (t0, .stop) = .stopped := by cases know pre <;> rfl
  rw [h0]
  clear this h0
  induction post with
  | nil => rfl
  | cons x post ih =>
    obtain ⟨t, e⟩ := x
    have n := h (t, e) List.mem_cons_self
    rw [List.foldl_cons]
    have : Know.next .stopped (t, e) = .stopped := by
      cases e with
      | ping c m => cases n
      | _ => rfl
    rw [this]
    exact ih (fun y hy => h y (List.mem_cons_of_mem _ hy))

/-! ### C41 -/

/-- C41: no false alarm.  In every history, whenever a timeout is reported, a PING was sent at least `wait` seconds before,
and since then there was no PONG, no stop and no other report -/
theorem C41_no_false_alarm {i w : Nat} {p : Peer} {now : Nat} {ops : List Op} (ha : AdmRun (alloc i w p now) ops) :
    ∃ f tr, run (alloc i w p now) ops = .ok (f, tr) ∧ ∀ pre t post, tr = pre ++ (t, .timeout) :: post →
      ∃ pre' t0 c m mid, pre = pre' ++ (t0, .ping c m) :: mid ∧ t0 + w * SEC ≤ t ∧
        ∀ x ∈ mid, x.2 ≠ .pong ∧ x.2 ≠ .stop ∧ x.2 ≠ .timeout ∧ x.2.isPing = false := by
  obtain ⟨f, tr, h1, hi, e1, e2⟩ := run_inv (inv_alloc i w p now) ha
  rw [List.nil_append] at hi
  refine ⟨f, tr, h1, ?_⟩
  intro pre t post heq
  obtain ⟨t0, hk, ht, _⟩ := hi.ok pre (t, .timeout) post heq
  rw [e2] at ht
  obtain ⟨pre', c, m, mid, hp, ha1, hb⟩ := know_asked hk
  refine ⟨pre', t0, c, m, mid, hp, ht, ?_⟩
  intro x hx
  obtain ⟨a1, a2, a3⟩ := ha1 x hx
  refine ⟨a1, a2, ?_, a3⟩
  intro e
  have := hb.2 ⟨x.1, by rw [← e]; exact hx⟩
  cases this

/-- C41: a dead peer is detected.  If after a PING (sent at `t0`) there was no PONG and no stop, and the FSM still exists,
then the timeout has been reported, exactly once, or it is due exactly `wait` seconds after the PING: as soon as that time
is reached the timer can expire, and then the timeout is reported. -/
theorem C41_detects {i w : Nat} (hw : 0 < w) {p : Peer} {now : Nat} {ops : List Op} (ha : AdmRun (alloc i w p now) ops) :
    ∃ f tr, run (alloc i w p now) ops = .ok (f, tr) ∧ ∀ pre t0 c m post, tr = pre ++ (t0, .ping c m) :: post → f.gone = false →
      (∀ x ∈ post, x.2 ≠ .pong ∧ x.2 ≠ .stop ∧ x.2.isPing = false) →
      (∃ t, (t, .timeout) ∈ post) ∨
      (f.timer = some (t0 + w * SEC, .noPong) ∧ ∃ f', step f .fire = .ok (f', if f.timeoutCb then [.timeout] else [.timeout, .term])) := by
  obtain ⟨f, tr, h1, hi, e1, e2⟩ := run_inv (inv_alloc i w p now) ha
  rw [List.nil_append] at hi
  refine ⟨f, tr, h1, ?_⟩
  intro pre t0 c m post heq hg hpost
  have e2' : f.wait = w := e2
  have hk := know_of_ping pre post t0 c m hpost
  rw [← heq] at hk
  have hst := hi.st hg
  cases hs : f.state with
  | init => rw [hs] at hst; rw [hst.1] at hk; cases hk
  | idle => rw [hs] at hst; obtain ⟨t, h2, _⟩ := hst; rw [h2] at hk; cases hk
  | waitResp =>
    rw [hs] at hst
    obtain ⟨t, late, h2, htm⟩ := hst
    rw [h2] at hk
    cases hk
    cases hany : post.any fun x => decide (x.2 = .timeout) with
    | true =>
      left
      obtain ⟨x, hx, he⟩ := List.any_eq_true.1 hany
      simp only [decide_eq_true_eq] at he
      exact ⟨x.1, by rw [← he]; exact hx⟩
    | false =>
      right
      rw [hany, e2'] at htm
      simp only [Bool.false_eq_true, if_false, if_pos hw] at htm
      refine ⟨htm, ?_⟩
      simp only [step, fire, use_ok hg, bind_ok, htm]
      by_cases hc : f.timeoutCb = true
      · simp only [if_pos hc]; exact ⟨_, rfl⟩
      · simp only [if_neg hc]; exact ⟨_, rfl⟩

/-- C41: at most one report per PING: between two reports there is another PING -/
theorem C41_report_once {i w : Nat} {p : Peer} {now : Nat} {ops : List Op} (ha : AdmRun (alloc i w p now) ops) :
    ∃ f tr, run (alloc i w p now) ops = .ok (f, tr) ∧ ∀ pre t1 mid t2 post, tr = pre ++ (t1, .timeout) :: (mid ++ (t2, .timeout) :: post) →
      ∃ x ∈ mid, x.2.isPing = true := by
  obtain ⟨f, tr, h1, h2⟩ := C41_no_false_alarm ha
  refine ⟨f, tr, h1, ?_⟩
  intro pre t1 mid t2 post heq
  obtain ⟨pre', t0, c, m, mid', hp, _, hm⟩ := h2 (pre ++ (t1, .timeout) :: mid) t2 post (by rw [heq]; simp)
  rcases List.append_eq_append_iff.1 hp with ⟨a', h3, h4⟩ | ⟨a', h3, h4⟩
  · cases a' with
    | nil => cases h4
    | cons y a' =>
      simp only [List.cons_append, List.cons.injEq] at h4
      exact ⟨(t0, .ping c m), by rw [h4.2]; simp, rfl⟩
  · cases a' with
    | nil => cases h4
    | cons y a' =>
      simp only [List.cons_append, List.cons.injEq] at h4
      exact absurd rfl (hm (t1, .timeout) (by rw [h4.2]; simp)).2.2.1

/-- C41: every PING is the IPA message PING, and is sent either at the start of a stopped keepalive, or at least `interval`
seconds after the (first) PONG for the previous PING, with no stop in between -/
theorem C41_interval {i w : Nat} {p : Peer} {now : Nat} {ops : List Op} (ha : AdmRun (alloc i w p now) ops) :
    ∃ f tr, run (alloc i w p now) ops = .ok (f, tr) ∧ ∀ pre t c m post, tr = pre ++ (t, .ping c m) :: post →
      m = [0x00, 0x01, 0xfe, 0x00] ∧
      ((∃ pre', pre = pre' ++ [(t, .start)] ∧ know pre' = .stopped) ∨
       (∃ pre' t0 mid, pre = pre' ++ (t0, .pong) :: mid ∧ t0 + i * SEC ≤ t ∧ (∃ t1 late, know pre' = .asked t1 late) ∧
          ∀ x ∈ mid, x.2 ≠ .stop ∧ x.2.isPing = false)) := by
  obtain ⟨f, tr, h1, hi, e1, e2⟩ := run_inv (inv_alloc i w p now) ha
  rw [List.nil_append] at hi
  refine ⟨f, tr, h1, ?_⟩
  intro pre t c m post heq
  obtain ⟨hm, h⟩ := hi.ok pre (t, .ping c m) post heq
  refine ⟨hm, ?_⟩
  rcases h with h | ⟨t0, hk, ht, _⟩
  · exact .inl h
  · rw [e1] at ht
    obtain ⟨pre', mid, hp, ha1, hb⟩ := know_answered hk
    exact .inr ⟨pre', t0, mid, hp, ht, ha1, hb⟩

/-- C41: and the next PING is sent: after the PONG for a PING the timer is due exactly `interval` seconds later, and when
it expires a PING is sent -/
theorem C41_next_ping {i w : Nat} (hiv : 0 < i) {p : Peer} {now : Nat} {ops : List Op} (ha : AdmRun (alloc i w p now) ops) :
    ∃ f tr, run (alloc i w p now) ops = .ok (f, tr) ∧ ∀ pre t0 post, tr = pre ++ (t0, .pong) :: post → f.gone = false →
      (∃ t1 late, know pre = .asked t1 late) → (∀ x ∈ post, x.2 ≠ .stop ∧ x.2.isPing = false) →
      f.timer = some (t0 + i * SEC, .nextPing) ∧
      ((f.peer = .generic → f.sendFn = true) → ∃ f' c, step f .fire = .ok (f', [.ping c [0x00, 0x01, 0xfe, 0x00]])) := by
  obtain ⟨f, tr, h1, hi, e1, e2⟩ := run_inv (inv_alloc i w p now) ha
  rw [List.nil_append] at hi
  refine ⟨f, tr, h1, ?_⟩
  intro pre t0 post heq hg ⟨t1, late, hk1⟩ hpost
  have e1' : f.interval = i := e1
  have hk := know_of_pong pre post t0 t1 late hk1 hpost
  rw [← heq] at hk
  have hst := hi.st hg
  cases hs : f.state with
  | init => rw [hs] at hst; rw [hst.1] at hk; cases hk
  | waitResp => rw [hs] at hst; obtain ⟨t, l, h2, _⟩ := hst; rw [h2] at hk; cases hk
  | idle =>
    rw [hs] at hst
    obtain ⟨t, h2, htm⟩ := hst
    rw [h2] at hk
    cases hk
    rw [e1', if_pos hiv] at htm
    refine ⟨htm, ?_⟩
    intro hsend
    obtain ⟨c, hc⟩ := stateChg_wait (f := { f with timer := none }) (by simp only [hs]; rfl) hsend f.wait .noPong
    have : step f .fire = stateChg { f with timer := none } .waitResp f.wait .noPong := by
      simp only [step, fire, use_ok hg, bind_ok, htm]
    exact ⟨_, c, this.trans hc⟩

/-- C41: after a stop there is no PING and no report until the next start -/
theorem C41_stop_silent {i w : Nat} {p : Peer} {now : Nat} {ops : List Op} (ha : AdmRun (alloc i w p now) ops) :
    ∃ f tr, run (alloc i w p now) ops = .ok (f, tr) ∧ ∀ pre t post, tr = pre ++ (t, .stop) :: post → (∀ x ∈ post, x.2 ≠ .start) →
      ∀ x ∈ post, x.2.isPing = false ∧ x.2 ≠ .timeout := by
  obtain ⟨f, tr, h1, hi, e1, e2⟩ := run_inv (inv_alloc i w p now) ha
  rw [List.nil_append] at hi
  refine ⟨f, tr, h1, ?_⟩
  intro pre t post heq hns
  have key : ∀ (q r : List (Nat × Ev)), post = q ++ r → ∀ x ∈ q, x.2.isPing = false ∧ x.2 ≠ .timeout := by
    intro q
    induction q using snocRec with
    | nil => intro r _ x hx; cases hx
    | append_singleton q e ih =>
      intro r hr
      have hq := ih (e :: r) (by rw [hr]; simp)
      have hk := know_stop pre q t (fun x hx => (hq x hx).1)
      have hok := hi.ok (pre ++ (t, .stop) :: q) e r (by rw [heq, hr]; simp)
      intro x hx
      rcases List.mem_append.1 hx with hx | hx
      · exact hq x hx
      · simp only [List.mem_singleton] at hx
        subst hx
        obtain ⟨te, ev⟩ := x
        cases ev with
        | timeout =>
          obtain ⟨t0, h2, _⟩ := hok
          rw [hk] at h2; cases h2
        | ping c m =>
          obtain ⟨_, ⟨pre', h2, _⟩ | ⟨t0, h2, _⟩⟩ := hok
          · rcases List.eq_nil_or_concat q with hq0 | ⟨q', y, hq0⟩
            · subst hq0
              have := (List.append_inj' h2 rfl).2
              cases this
            · rw [List.concat_eq_append] at hq0
              subst hq0
              rw [← List.cons_append, ← List.append_assoc] at h2
              have h3 := (List.append_inj' h2 rfl).2
              simp only [List.cons.injEq, and_true] at h3
              have := hns y (by rw [hr]; simp)
              rw [h3] at this
              exact absurd rfl this
          · rw [hk] at h2; cases h2
        | start => exact ⟨rfl, by simp⟩
        | stop => exact ⟨rfl, by simp⟩
        | pong => exact ⟨rfl, by simp⟩
        | term => exact ⟨rfl, by simp⟩
  exact key post [] (by simp)

/-- C41: starting a stopped keepalive sends a PING at once; starting a running one does nothing -/
theorem C41_start {i w : Nat} {p : Peer} {now : Nat} {ops : List Op} (ha : AdmRun (alloc i w p now) ops) :
    ∃ f tr, run (alloc i w p now) ops = .ok (f, tr) ∧ (f.gone = false → (f.peer = .generic → f.sendFn = true) →
      (know tr = .stopped → ∃ f' c, step f .start = .ok (f', [.start, .ping c [0x00, 0x01, 0xfe, 0x00]])) ∧
      (know tr ≠ .stopped → step f .start = .ok (f, [.start]))) := by
  obtain ⟨f, tr, h1, hi, e1, e2⟩ := run_inv (inv_alloc i w p now) ha
  rw [List.nil_append] at hi
  refine ⟨f, tr, h1, ?_⟩
  intro hg hs
  have hst := hi.st hg
  simp only [step, start, use_ok hg, bind_ok]
  cases hst' : f.state with
  | init =>
    rw [hst'] at hst
    refine ⟨?_, fun h => absurd hst.1 h⟩
    intro _
    obtain ⟨c, hc⟩ := stateChg_wait (f := f) (by rw [hst']; rfl) hs f.wait .noPong
    rw [hc]
    exact ⟨_, c, rfl⟩
  | idle =>
    rw [hst'] at hst
    obtain ⟨t0, hk, _⟩ := hst
    exact ⟨(fun h => by rw [hk] at h; cases h), fun _ => rfl⟩
  | waitResp =>
    rw [hst'] at hst
    obtain ⟨t0, l, hk, _⟩ := hst
    exact ⟨(fun h => by rw [hk] at h; cases h), fun _ => rfl⟩

/-- C41: without `timeout_cb`, or if it returns 1, the FSM is terminated, and only then -/
theorem C41_terminates {i w : Nat} {p : Peer} {now : Nat} {ops : List Op} (ha : AdmRun (alloc i w p now) ops) :
    ∃ f tr, run (alloc i w p now) ops = .ok (f, tr) ∧
      (∀ pre t post, tr = pre ++ (t, .term) :: post → ∃ t', (t', .timeout) ∈ pre) ∧
      (f.gone = false → f.timeoutCb = false → ∀ e, f.timer = some (e, .noPong) → ∃ f', step f .fire = .ok (f', [.timeout, .term]) ∧ f'.gone = true) ∧
      (f.inCb = true → (∃ f', step f (.cbReturn 1) = .ok (f', [.term]) ∧ f'.gone = true) ∧
        ∀ rc, rc ≠ 1 → ∃ f', step f (.cbReturn rc) = .ok (f', []) ∧ f'.gone = false) := by
  obtain ⟨f, tr, h1, hi, e1, e2⟩ := run_inv (inv_alloc i w p now) ha
  rw [List.nil_append] at hi
  refine ⟨f, tr, h1, ?_, ?_, ?_⟩
  · intro pre t post heq
    exact hi.ok pre (t, .term) post heq
  · intro hg hc e ht
    simp only [step, fire, use_ok hg, bind_ok, ht, hc]
    exact ⟨_, rfl, rfl⟩
  · intro hc
    have hg := hi.cbGone hc
    refine ⟨?_, ?_⟩
    · simp only [step, cbReturn, hc, use_ok hg, bind_ok, if_true]
      exact ⟨_, rfl, rfl⟩
    · intro rc hr
      simp only [step, cbReturn, hc, if_true, if_neg hr]
      exact ⟨_, rfl, hg⟩

/-! ### examples and defects -/

def admB (f : Fsm) : Op → Bool
  | .start => !f.gone && (decide (f.peer ≠ .generic) || f.sendFn)
  | .stop => !f.gone
  | .pong => !f.gone
  | .fire => !f.gone && !f.inCb && (decide (f.peer ≠ .generic) || f.sendFn) && match f.timer with | none => false | some (e, _) => decide (e ≤ f.now)
  | .cbReturn _ => f.inCb
  | .elapse _ => true
  | .setSend _ => !f.gone
  | .setTimeout _ => !f.gone

theorem admB_ok {f : Fsm} {op : Op} (h : admB f op = true) : Adm f op := by
  have gen : (decide (f.peer ≠ .generic) || f.sendFn) = true → f.peer = .generic → f.sendFn = true := by
    intro h1 h2
    simpa [h2] using h1
  cases op with
  | start =>
    simp only [admB, Bool.and_eq_true, Bool.not_eq_true'] at h
    exact ⟨h.1, gen h.2⟩
  | stop => simpa [admB, Adm] using h
  | pong => simpa [admB, Adm] using h
  | setSend b => simpa [admB, Adm] using h
  | setTimeout b => simpa [admB, Adm] using h
  | elapse d => trivial
  | cbReturn rc => exact h
  | fire =>
    simp only [admB, Bool.and_eq_true, Bool.not_eq_true'] at h
    obtain ⟨⟨⟨h1, h2⟩, h3⟩, h4⟩ := h
    refine ⟨h1, h2, gen h3, ?_⟩
    cases ht : f.timer with
    | none => rw [ht] at h4; cases h4
    | some x =>
      obtain ⟨e, t⟩ := x
      rw [ht] at h4
      exact ⟨e, t, rfl, by simpa using h4⟩

def admRunB (f : Fsm) : List Op → Bool
  | [] => true
  | op :: ops => admB f op && match step f op with | .ok (f', _) => admRunB f' ops | .error _ => false

theorem admRunB_ok {f : Fsm} {ops : List Op} (h : admRunB f ops = true) : AdmRun f ops := by
  induction ops generalizing f with
  | nil => trivial
  | cons op ops ih =>
    simp only [admRunB, Bool.and_eq_true] at h
    refine ⟨admB_ok h.1, ?_⟩
    intro f' a hs
    rw [hs] at h
    exact ih h.2

/-- a life: PING, PONG after 1 s, next PING 30 s later, no answer, timeout after 5 s, late PONG, stop, start -/
def life : List Op :=
  [.setTimeout true, .start, .elapse 1000000, .pong, .elapse 30000000, .fire, .elapse 5000007, .fire, .cbReturn 0, .elapse 1, .pong, .stop,
   .elapse 99, .start, .start]

theorem life_adm : AdmRun (alloc 30 5 .client 7) life := admRunB_ok (by decide +kernel)

example : (match run (alloc 30 5 .client 7) life with
    | .ok (_, tr) => tr == [(7, .start), (7, .ping false genPing), (1000007, .pong), (31000007, .ping false genPing), (36000014, .timeout),
        (36000015, .pong), (36000015, .stop), (36000114, .start), (36000114, .ping false genPing), (36000114, .start)]
    | _ => false) = true := by decide +kernel

/-- with `wait_for_resp` = 0 a dead peer is never detected: after the PING no timer runs -/
theorem wait_zero_violated (i : Nat) (p : Peer) (hp : p ≠ .generic) (now : Nat) :
    ∃ f, run (alloc i 0 p now) [.start] = .ok (f, [(now, .start), (now, .ping false genPing)]) ∧ f.timer = none := by
  cases p with
  | generic => exact absurd rfl hp
  | server => exact ⟨_, rfl, rfl⟩
  | client => exact ⟨_, rfl, rfl⟩

/-- with `interval` = 0 only one PING is ever sent: after the PONG no timer runs -/
theorem interval_zero_violated (w now : Nat) :
    ∃ f, run (alloc 0 w .client now) [.start, .pong] = .ok (f, [(now, .start), (now, .ping false genPing), (now, .pong)]) ∧ f.timer = none ∧
      f.state = .idle := ⟨_, rfl, rfl, rfl⟩

/-- a keepalive for a generic connection without send callback aborts the program -/
theorem generic_no_send_violated (i w now : Nat) : run (alloc i w .generic now) [.start] = .error .assert := rfl

end Ka
end Verif.Ipa
