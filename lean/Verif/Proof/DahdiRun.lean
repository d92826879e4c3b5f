import Verif.Proof.Dahdi
set_option maxRecDepth 10000
namespace Verif.Dahdi

/-! ### Histories -/

theorem onSlot_inv {w w' : W} {l t : Nat} {r : M (Slot × List Act)} {a : Acts} (h : onSlot w l t r = .ok (w', a)) :
    ∃ s b, r = .ok (s, b) ∧ w' = setS w l t s ∧ a = tag l t b := by
  unfold onSlot at h
  cases r with
  | error e => cases h
  | ok p => obtain ⟨s, b⟩ := p; cases h; exact ⟨s, b, rfl, rfl, rfl⟩

/-- what an operation other than an update and a configuration does to each time slot -/
theorem set_evd {w : W} {l t : Nat} {s : Slot} {b : List Act} (v : Evd (w.s l t) s b) :
    ∀ x y, Evd (w.s x y) ((setS w l t s).s x y) (ofSlot x y (tag l t b)) := by
  intro x y
  rw [ofSlot_tag]
  by_cases g : l = x ∧ t = y
  · obtain ⟨rfl, rfl⟩ := g
    rw [if_pos ⟨rfl, rfl⟩, setS_self]; exact v
  · rw [if_neg g, setS_other _ (fun e => g ⟨e.1.symm, e.2.symm⟩)]; exact Evd.refl _

theorem timeout_evd {s : Slot} (hT : s.q ≠ [] → s.ty = .sign ∨ s.ty = .raw ∨ s.ty = .hdlc) : Evd s (timeout s) [] := by
  unfold timeout
  rw [wantWrite_eq]
  refine ⟨rfl, rfl, rfl, rfl, fun _ => rfl, fun _ => rfl, fun _ => rfl, fun t _ _ => .inl ?_⟩
  exact wantWrite_wr (by exact t)

theorem lapdTx_evd {s : Slot} (d : List Byte) (n : Int) (pad : Byte × Byte) (x : Option Evt) (hs : s.ty = .sign ∨ s.ty = .none ∨ s.ty = .trau ∨ s.ty = .i460) :
    Evd s s (lapdTx s d n pad x) := by
  refine ⟨rfl, rfl, rfl, rfl, fun p => ⟨p, rfl, after_bal _ _ _⟩, ?_, fun _ => rfl, fun _ h => h⟩
  intro g
  have e : s.ty = .sign := by
    rcases hs with e | e | e | e
    · exact e
    all_goals rw [e] at g; rcases g with g | g | g <;> cases g
  rw [e]
  show s.q = (if Ty.sign = Ty.raw then _ else _) ++ s.q
  rw [if_neg (by intro g; cases g), if_neg (by intro g; cases g), after_went]
  rfl

/-- the descriptor part of what LAPD does -/
theorem lapdTx_bal {s : Slot} (d : List Byte) (n : Int) (pad : Byte × Byte) (x : Option Evt) (p : 0 < s.fd) : Balanced s.fd (lapdTx s d n pad x) s.fd :=
  ⟨p, rfl, after_bal _ _ _⟩

theorem free_bal (q : List (List Byte)) (s : Int) : Balanced s (q.map Act.free) s := by
  induction q with
  | nil => rfl
  | cons m q ih => exact ih

structure RInv (E : Env) (w : W) : Prop where
  inv : WInv w
  cache : CInv E w
  port : ∀ l, w.port l < 128
  gone : ∀ l, w.gone l = false

theorem openFd_evd {s s' : Slot} {a : List Act} (v : Evd s s' a) (hp : a ≠ [] → 0 < s.fd) : Balanced (openFd s) a (openFd s') := by
  have e : openFd s' = openFd s := by unfold openFd; rw [v.fd]
  rw [e]
  by_cases h : a = []
  · subst h; rfl
  · rw [openFd_pos (hp h)]; exact v.bal (hp h)

theorem set_winv {w : W} (h : WInv w) {l t : Nat} {s : Slot} (hs : SInv s) : WInv (setS w l t s) := by
  intro x y
  by_cases g : x = l ∧ y = t
  · obtain ⟨rfl, rfl⟩ := g; rw [setS_self]; exact hs
  · rw [setS_other _ g]; exact h x y

theorem set_bal {w : W} {l t : Nat} {s : Slot} {b : List Act} (hb : Balanced (openFd (w.s l t)) b (openFd s)) :
    ∀ x y, Balanced (openFd (w.s x y)) (ofSlot x y (tag l t b)) (openFd ((setS w l t s).s x y)) := by
  intro x y
  rw [ofSlot_tag]
  by_cases g : l = x ∧ t = y
  · obtain ⟨rfl, rfl⟩ := g
    rw [if_pos ⟨rfl, rfl⟩, setS_self]; exact hb
  · rw [if_neg g, setS_other _ (fun e => g ⟨e.1.symm, e.2.symm⟩)]; exact rfl

theorem set_rinv {E : Env} {w : W} (h : RInv E w) {l t : Nat} {s : Slot} (hs : SInv s) : RInv E (setS w l t s) :=
  ⟨set_winv h.inv hs, ⟨h.cache.none, h.cache.some⟩, h.port, h.gone⟩

theorem send_eq {s s' : Slot} {m : List Byte} {a : List Act} (h : send s m = .ok (s', a)) :
    a = [] ∧ s'.ty = s.ty ∧ s'.fd = s.fd ∧ s'.reg = s.reg ∧ s'.lapd = s.lapd ∧ s'.timer = s.timer ∧ s'.q = s.q ++ [m] ∧ (s'.wr = true ∨ s'.timer = true) ∧
      (s.ty = .sign ∨ s.ty = .raw ∨ s.ty = .hdlc) := by
  unfold send at h
  cases ht : s.ty <;> simp only [ht] at h
  case sign =>
    cases h
    have hw := wantWrite_eq s
    cases htm : s.timer with
    | true => simp [ht, htm]
    | false =>
      have := wantWrite_wr (s := s) (.inl ht)
      rw [hw]
      simp [ht, htm, this]
  case raw =>
    cases h
    have := wantWrite_wr (s := s) (.inr (.inl ht))
    rw [wantWrite_eq s]
    simp [ht, this]
  case hdlc =>
    cases h
    have := wantWrite_wr (s := s) (.inr (.inr ht))
    rw [wantWrite_eq s]
    simp [ht, this]
  all_goals cases h

theorem step_rinv {E : Env} (hE : NotStdin E) (hS : SmallSpans E) {w : W} (h : RInv E w) {op : Op} (ho : (∀ l p, op = .port l p → p < 128) ∧ (∀ l, op ≠ .release l))
    {w' : W} {a : Acts} (hs : step E w op = .ok (w', a)) :
    RInv E w' ∧ ∀ x y, Balanced (openFd (w.s x y)) (ofSlot x y a) (openFd (w'.s x y)) := by
  cases op with
  | port l p =>
    cases hs
    refine ⟨⟨h.inv, ⟨h.cache.none, h.cache.some⟩, ?_, h.gone⟩, fun x y => rfl⟩
    intro x
    show (if x = l then p else w.port x) < 128
    split
    · exact ho.1 l p rfl
    · exact h.port x
  | config l t ty =>
    obtain ⟨s, b, e, rfl, rfl⟩ := onSlot_inv hs
    cases hc : config (w.s l t) ty
    rw [hc] at e
    cases e
    unfold config at hc
    split at hc
    · cases hc
      exact ⟨set_rinv h (h.inv l t), set_bal rfl⟩
    · cases hc
      exact ⟨set_rinv h ⟨(h.inv l t).reg, (h.inv l t).lapd⟩, set_bal (free_bal _ _)⟩
  | update l =>
    obtain ⟨w2, b, rc, e, i1, i2, _, i4, i5, U, _⟩ := lineUpdate_ok hE hS h.inv h.cache (h.port l)
    simp only [step, e, Except.map] at hs
    cases hs
    exact ⟨⟨i1, i2, by rw [i4]; exact h.port, by rw [i5]; exact h.gone⟩, U.bal⟩
  | event l t e =>
    simp only [step] at hs
    split at hs
    · rename_i hr
      rw [if_neg (by rw [h.gone l]; intro e; cases e)] at hs
      obtain ⟨s, b, e', rfl, rfl⟩ := onSlot_inv hs
      have v := fdCb_ok e'
      exact ⟨set_rinv h (v.inv (h.inv l t)), set_bal (openFd_evd v (fun _ => (h.inv l t).reg hr))⟩
    · cases hs; exact ⟨h, fun x y => rfl⟩
  | send l t m =>
    obtain ⟨s, b, e, rfl, rfl⟩ := onSlot_inv hs
    obtain ⟨e0, e1, e2, e3, e4, _⟩ := send_eq e
    subst e0
    refine ⟨set_rinv h ⟨by rw [e2, e3]; exact (h.inv l t).reg, by rw [e2, e4]; exact (h.inv l t).lapd⟩, set_bal ?_⟩
    unfold openFd; rw [e2]; exact rfl
  | timeout l t =>
    simp only [step] at hs
    split at hs
    · rw [if_neg (by rw [h.gone l]; intro e; cases e)] at hs
      obtain ⟨s, b, e', rfl, rfl⟩ := onSlot_inv hs
      cases e'
      have : timeout (w.s l t) = { w.s l t with timer := false, wr := (timeout (w.s l t)).wr } := by
        unfold timeout; rw [wantWrite_eq]
      rw [this]
      exact ⟨set_rinv h ⟨(h.inv l t).reg, (h.inv l t).lapd⟩, set_bal rfl⟩
    · cases hs; exact ⟨h, fun x y => rfl⟩
  | lapdTx l t d n pad x =>
    simp only [step] at hs
    split at hs
    · rename_i hl
      rw [if_neg (by rw [h.gone l]; intro e; cases e)] at hs
      obtain ⟨s, b, e', rfl, rfl⟩ := onSlot_inv hs
      cases e'
      refine ⟨set_rinv h (h.inv l t), set_bal ?_⟩
      rw [openFd_pos ((h.inv l t).lapd hl)]
      exact lapdTx_bal d n pad x ((h.inv l t).lapd hl)
    · cases hs; exact ⟨h, fun x y => rfl⟩
  | release l => exact absurd rfl (ho.2 l)

theorem init_rinv (E : Env) : RInv E init :=
  ⟨fun _ _ => ⟨(by intro e; cases e), (by intro e; cases e)⟩, ⟨fun _ _ => rfl, (by intro tot e; cases e)⟩, fun _ => by show 0 < 128; decide, fun _ => rfl⟩

theorem run_rinv {E : Env} (hE : NotStdin E) (hS : SmallSpans E) : ∀ (ops : List Op) {w w' : W} {a : Acts}, RInv E w → Sane ops → run E w ops = .ok (w', a) →
    RInv E w' ∧ ∀ x y, Balanced (openFd (w.s x y)) (ofSlot x y a) (openFd (w'.s x y)) := by
  intro ops
  induction ops with
  | nil => intro w w' a h _ hs; cases hs; exact ⟨h, fun x y => rfl⟩
  | cons op ops ih =>
    intro w w' a h ho hs
    simp only [run, bind, Except.bind] at hs
    cases h1 : step E w op with
    | error e => rw [h1] at hs; cases hs
    | ok p =>
      obtain ⟨w1, a1⟩ := p
      rw [h1] at hs
      simp only at hs
      cases h2 : run E w1 ops with
      | error e => rw [h2] at hs; cases hs
      | ok p2 =>
        obtain ⟨w2, a2⟩ := p2
        rw [h2] at hs
        cases hs
        obtain ⟨i1, b1⟩ := step_rinv hE hS h (ho op (List.mem_cons_self ..)) h1
        obtain ⟨i2, b2⟩ := ih i1 (fun o m => ho o (List.mem_cons_of_mem _ m)) h2
        exact ⟨i2, fun x y => by rw [ofSlot_append]; exact bal_append (b1 x y) (b2 x y)⟩

/-! ### Queues -/

/-- messages are queued on time slots of these types only; a stale LAPD instance on an HDLC time slot is excluded -/
structure QInv (s : Slot) : Prop where
  typed : s.q ≠ [] → s.ty = .sign ∨ s.ty = .raw ∨ s.ty = .hdlc

theorem Evd.qinv {s s' : Slot} {a : List Act} (v : Evd s s' a) (h : QInv s) : QInv s' := by
  refine ⟨fun g => ?_⟩
  rw [v.ty]
  refine Decidable.byContradiction fun hn => ?_
  have hq : s.q = [] := by
    refine Decidable.byContradiction fun hq => hn (h.typed hq)
  have : s'.q = s.q := v.other (by cases ht : s.ty <;> simp [ht] at hn ⊢)
  rw [this] at g; exact g hq

/-- one step on one time slot: what was queued or is sent goes out or is queued -/
theorem step_fifo {E : Env} (hE : NotStdin E) (hS : SmallSpans E) {w : W} (h : RInv E w) {l t : Nat} (ht : (w.s l t).ty = .sign ∨ (w.s l t).ty = .raw ∨ (w.s l t).ty = .hdlc)
    (hl : (w.s l t).ty ≠ .sign → (w.s l t).lapd = false) {op : Op} (hc : ∀ ty, op ≠ .config l t ty)
    {w' : W} {a : Acts} (hs : step E w op = .ok (w', a)) :
    (w.s l t).q ++ sent l t [op] = wentOut (w.s l t).ty (ofSlot l t a) ++ (w'.s l t).q ∧ (w'.s l t).ty = (w.s l t).ty ∧
      ((w'.s l t).ty ≠ .sign → (w'.s l t).lapd = false) ∧
      ((∀ l, op ≠ .update l) → ((w.s l t).q ≠ [] → (w.s l t).wr = true ∨ (w.s l t).timer = true) → (w'.s l t).q ≠ [] → (w'.s l t).wr = true ∨ (w'.s l t).timer = true) := by
  have same : ∀ {l' t' : Nat} {s : Slot} {b : List Act}, Evd (w.s l' t') s b → w' = setS w l' t' s → a = tag l' t' b → sent l t [op] = [] →
      (w.s l t).q ++ sent l t [op] = wentOut (w.s l t).ty (ofSlot l t a) ++ (w'.s l t).q ∧ (w'.s l t).ty = (w.s l t).ty ∧
      ((w'.s l t).ty ≠ .sign → (w'.s l t).lapd = false) ∧
      ((∀ l, op ≠ .update l) → ((w.s l t).q ≠ [] → (w.s l t).wr = true ∨ (w.s l t).timer = true) → (w'.s l t).q ≠ [] → (w'.s l t).wr = true ∨ (w'.s l t).timer = true) := by
    intro l' t' s b v e1 e2 e3
    subst e1; subst e2
    have V := set_evd v l t
    rw [e3, List.append_nil]
    exact ⟨V.fifo ht, V.ty, by rw [V.ty, V.lapd]; exact hl, fun _ => V.pend ht⟩
  cases op with
  | port l' p =>
    cases hs
    exact ⟨by simp [sent, ofSlot, wentOut], rfl, hl, fun _ p => p⟩
  | config l' t' ty =>
    obtain ⟨s, b, e, rfl, rfl⟩ := onSlot_inv hs
    have hne : ¬ (l' = l ∧ t' = t) := by rintro ⟨rfl, rfl⟩; exact hc ty rfl
    rw [ofSlot_tag, if_neg hne, setS_other _ (fun e => hne ⟨e.1.symm, e.2.symm⟩)]
    exact ⟨by simp [sent, wentOut], rfl, hl, fun _ p => p⟩
  | update l' =>
    obtain ⟨w2, b, rc, e, _, _, _, _, _, U, o, _, _, _⟩ := lineUpdate_ok hE hS h.inv h.cache (h.port l')
    simp only [step, e, Except.map] at hs
    cases hs
    have hq : (w'.s l t).q = (w.s l t).q := U.q l t
    have hty : (w'.s l t).ty = (w.s l t).ty := U.ty l t
    refine ⟨by rw [U.went, hq]; simp [sent], hty, ?_, fun g => absurd rfl (g l')⟩
    intro g
    rw [hty] at g
    exact U.noLapd l t g (hl g)
  | event l' t' e =>
    simp only [step] at hs
    split at hs
    · rw [if_neg (by rw [h.gone l']; intro e; cases e)] at hs
      obtain ⟨s, b, e', e1, e2⟩ := onSlot_inv hs
      exact same (fdCb_ok e') e1 e2 rfl
    · cases hs; exact ⟨by simp [sent, ofSlot, wentOut], rfl, hl, fun _ p => p⟩
  | send l' t' m =>
    obtain ⟨s, b, e, rfl, rfl⟩ := onSlot_inv hs
    obtain ⟨e0, e1, e2, e3, e4, e5, e6, e7, _⟩ := send_eq e
    subst e0
    by_cases g : l' = l ∧ t' = t
    · obtain ⟨rfl, rfl⟩ := g
      rw [ofSlot_tag, if_pos ⟨rfl, rfl⟩, setS_self, e1, e4, e6]
      refine ⟨?_, rfl, hl, fun _ _ _ => e7⟩
      simp [sent, wentOut]
    · rw [ofSlot_tag, if_neg g, setS_other _ (fun e => g ⟨e.1.symm, e.2.symm⟩)]
      refine ⟨?_, rfl, hl, fun _ p => p⟩
      simp only [sent, if_neg g, wentOut, List.append_nil, List.nil_append]
  | timeout l' t' =>
    simp only [step] at hs
    split at hs
    · rw [if_neg (by rw [h.gone l']; intro e; cases e)] at hs
      obtain ⟨s, b, e', rfl, rfl⟩ := onSlot_inv hs
      cases e'
      by_cases g : l' = l ∧ t' = t
      · obtain ⟨rfl, rfl⟩ := g
        have v := timeout_evd (s := w.s l' t') (fun _ => ht)
        exact same v rfl rfl rfl
      · rw [ofSlot_tag, if_neg g, setS_other _ (fun e => g ⟨e.1.symm, e.2.symm⟩)]
        exact ⟨by simp [sent, wentOut], rfl, hl, fun _ p => p⟩
    · cases hs; exact ⟨by simp [sent, ofSlot, wentOut], rfl, hl, fun _ p => p⟩
  | lapdTx l' t' d n pad x =>
    simp only [step] at hs
    split at hs
    · rename_i hlapd
      rw [if_neg (by rw [h.gone l']; intro e; cases e)] at hs
      obtain ⟨s, b, e', rfl, rfl⟩ := onSlot_inv hs
      cases e'
      by_cases g : l' = l ∧ t' = t
      · obtain ⟨rfl, rfl⟩ := g
        have hsign : (w.s l' t').ty = .sign := by
          refine Decidable.byContradiction fun hn => ?_
          rw [hl hn] at hlapd; cases hlapd
        exact same (lapdTx_evd d n pad x (.inl hsign)) rfl rfl rfl
      · rw [ofSlot_tag, if_neg g, setS_other _ (fun e => g ⟨e.1.symm, e.2.symm⟩)]
        exact ⟨by simp [sent, wentOut], rfl, hl, fun _ p => p⟩
    · cases hs; exact ⟨by simp [sent, ofSlot, wentOut], rfl, hl, fun _ p => p⟩
  | release l' => cases hs; exact ⟨by simp [sent, ofSlot, wentOut], rfl, hl, fun _ p => p⟩

theorem run_cons {E : Env} {w w' : W} {op : Op} {ops : List Op} {a : Acts} (h : run E w (op :: ops) = .ok (w', a)) :
    ∃ w1 a1 a2, step E w op = .ok (w1, a1) ∧ run E w1 ops = .ok (w', a2) ∧ a = a1 ++ a2 := by
  simp only [run, bind, Except.bind] at h
  cases h1 : step E w op with
  | error e => rw [h1] at h; cases h
  | ok p =>
    obtain ⟨w1, a1⟩ := p
    rw [h1] at h
    simp only at h
    cases h2 : run E w1 ops with
    | error e => rw [h2] at h; cases h
    | ok p2 =>
      obtain ⟨w2, a2⟩ := p2
      rw [h2] at h
      cases h
      exact ⟨w1, a1, a2, rfl, h2, rfl⟩

theorem sent_cons (l t : Nat) (op : Op) (ops : List Op) : sent l t (op :: ops) = sent l t [op] ++ sent l t ops := by
  cases op <;> simp only [sent, List.nil_append]
  split <;> rfl

theorem run_fifo {E : Env} (hE : NotStdin E) (hS : SmallSpans E) (l t : Nat) : ∀ (ops : List Op) {w w' : W} {a : Acts}, RInv E w → Sane ops → Unchanged l t ops →
    (w.s l t).ty = .sign ∨ (w.s l t).ty = .raw ∨ (w.s l t).ty = .hdlc → ((w.s l t).ty ≠ .sign → (w.s l t).lapd = false) → run E w ops = .ok (w', a) →
    (w.s l t).q ++ sent l t ops = wentOut (w.s l t).ty (ofSlot l t a) ++ (w'.s l t).q ∧ (w'.s l t).ty = (w.s l t).ty ∧
      (NoUpdate ops → ((w.s l t).q ≠ [] → (w.s l t).wr = true ∨ (w.s l t).timer = true) → (w'.s l t).q ≠ [] → (w'.s l t).wr = true ∨ (w'.s l t).timer = true) := by
  intro ops
  induction ops with
  | nil =>
    intro w w' a _ _ _ _ _ hs
    cases hs
    exact ⟨by simp [sent, ofSlot, wentOut], rfl, fun _ p => p⟩
  | cons op ops ih =>
    intro w w' a h hs hu ht hl hr
    obtain ⟨w1, a1, a2, e1, e2, rfl⟩ := run_cons hr
    have h1 := (step_rinv hE hS h (hs op (List.mem_cons_self ..)) e1).1
    obtain ⟨f1, t1, l1, p1⟩ := step_fifo hE hS h ht hl (hu op (List.mem_cons_self ..)) e1
    obtain ⟨f2, t2, p2⟩ := ih h1 (fun o m => hs o (List.mem_cons_of_mem _ m)) (fun o m => hu o (List.mem_cons_of_mem _ m)) (by rw [t1]; exact ht) l1 e2
    refine ⟨?_, t2.trans t1, ?_⟩
    · rw [sent_cons, ← List.append_assoc, f1, List.append_assoc, f2, ofSlot_append, went_append, t1, List.append_assoc]
    · intro hn hp
      exact p2 (fun o m => hn o (List.mem_cons_of_mem _ m)) (p1 (hn op (List.mem_cons_self ..)) hp)

/-! ### Proper use -/

/-- all cards have the same number of channels per span, and ports are those of spans -/
structure SafeInv (c : Nat) (dirty : Nat → Bool) (ty : Nat → Nat → Ty) (w : W) : Prop where
  types : ∀ l t, (w.s l t).ty = ty l t
  fd : ∀ l t, 0 ≤ (w.s l t).fd
  inside : ∀ l t, (w.s l t).reg = true → 1 ≤ t ∧ t ≤ c
  ready : ∀ l t, dirty l = false → (w.s l t).reg = true → (w.s l t).ty = .sign → (w.s l t).lapd = true

theorem updTs_works {E : Env} (hE : NotStdin E) (n l base : Nat) (ha : ∀ t, (∃ f, (E.ans n t).fd = some f) ∧ (E.ans n t).buf = true ∧ (E.ans n t).reg = true) :
    ∀ (k t : Nat) {w w' : W} {a : Acts} {rc : Int}, WInv w → (∀ x y, 0 ≤ (w.s x y).fd) → updTs E n l base k t w = .ok (w', a, rc) → rc = 0 ∧ ∀ x y, 0 ≤ (w'.s x y).fd := by
  intro k
  induction k with
  | zero => intro t w w' a rc _ h0 h; cases h; exact ⟨rfl, h0⟩
  | succ k ih =>
    intro t w w' a rc h h0 hr
    have u := updSlot_ok (chan := base + (t - 1)) (h l t) (hE n t)
    have wk := updSlot_works (s := w.s l t) (chan := base + (t - 1)) (hE n t) (ha t).1 (ha t).2.1 (ha t).2.2 (h0 l t)
    simp only [updTs] at hr
    split at hr
    · cases hr
    · rw [wk] at hr u
      simp only [bind, Except.bind] at hr
      cases h2 : updTs E n l base k (t + 1) (setS w l t (updSlot (w.s l t) (base + (t - 1)) (E.ans n t)).1) with
      | error e => rw [h2] at hr; cases hr
      | ok p =>
        obtain ⟨w2, b, rc2⟩ := p
        rw [h2] at hr
        cases hr
        refine ih (t + 1) (ups_slot h u).inv ?_ h2
        intro x y
        by_cases g : x = l ∧ y = t
        · obtain ⟨rfl, rfl⟩ := g
          rw [setS_self]
          have ok := u.ok rfl
          by_cases hn : (updSlot (w.s x y) (base + (y - 1)) (E.ans n y)).1.ty = .none
          · rw [(ok.1 hn).1]; decide
          · have := (ok.2.1 hn).1; omega
        · rw [setS_other _ g]; exact h0 x y

theorem works_known {E : Env} (hW : Works E) (n : Nat) : ∃ tot, E.ctl n = some tot ∧ known E (n + 1) = some tot := by
  obtain ⟨tot, h⟩ := (hW n).1
  exact ⟨tot, h, by simp only [known, h]⟩

theorem lineUpdate_works {E : Env} (hE : NotStdin E) (hW : Works E) {c : Nat} (hC : Cards E c) (hc : c ≤ 32) {w w' : W} {a : Acts} {rc : Int} {l : Nat}
    (h : WInv w) (hci : CInv E w) (h0 : ∀ x y, 0 ≤ (w.s x y).fd) (hp : w.port l < 127) (hr : lineUpdate E w l = .ok (w', a, rc)) :
    rc = 0 ∧ (∀ x y, 0 ≤ (w'.s x y).fd) ∧ ∀ x y, ¬ (x = l ∧ 1 ≤ y ∧ y ≤ c) → w'.s x y = w.s x y := by
  obtain ⟨c1, s1, p1, g1, u1⟩ := rereadCfg_ok hci
  obtain ⟨tot, ht, hk⟩ := works_known hW w.upd
  have hcache := c1.some tot (by rw [u1]; exact hk) (w.port l)
  rw [if_pos hp, hC w.upd tot ht _ hp] at hcache
  unfold lineUpdate at hr
  have hp' : ¬ MAX_SPANS ≤ (rereadCfg E w).port l := by rw [p1]; simp only [MAX_SPANS]; omega
  simp only [if_neg hp'] at hr
  rw [p1, hcache] at hr
  simp only [Option.map_some] at hr
  have hw : WInv (rereadCfg E w) := by intro x y; rw [s1]; exact h x y
  obtain ⟨w2, b, rc2, e2, _, o2, _⟩ := updTs_ok hE w.upd l (1 + chansOf tot (w.port l)) c 1 hw (by omega)
  have hr2 := hr
  rw [e2] at hr2
  cases hr2
  obtain ⟨k1, k2⟩ := updTs_works hE w.upd l _ (hW w.upd).2 c 1 hw (by rw [s1]; exact h0) hr
  refine ⟨k1, k2, ?_⟩
  intro x y g
  rw [o2 x y (by intro e; exact g ⟨e.1, e.2.1, by omega⟩), s1]

theorem step_safe {E : Env} (hE : NotStdin E) (hS : SmallSpans E) (hW : Works E) {c : Nat} (hC : Cards E c) (hc : c ≤ 32) {w : W} {dirty : Nat → Bool} {ty : Nat → Nat → Ty}
    (h : RInv E w) (hp : ∀ l, w.port l < 127) (hs : SafeInv c dirty ty w) {op : Op} {ops : List Op} (ho : ∀ l p, op = .port l p → p < 127) (hpr : Proper dirty ty (op :: ops)) :
    ∃ w' a, step E w op = .ok (w', a) ∧ RInv E w' ∧ (∀ l, w'.port l < 127) ∧ ∃ dirty' ty', SafeInv c dirty' ty' w' ∧ Proper dirty' ty' ops := by
  have fin : ∀ {w' : W} {a : Acts}, step E w op = .ok (w', a) → (∀ l, op ≠ .release l) → RInv E w' := fun e1 e2 =>
    (step_rinv hE hS h ⟨fun l p e => by have := ho l p e; omega, e2⟩ e1).1
  cases op with
  | port l p =>
    refine ⟨_, _, rfl, fin rfl (by intro l e; cases e), ?_, _, _, ?_, hpr⟩
    · intro x; show (if x = l then p else w.port x) < 127; split
      · exact ho l p rfl
      · exact hp x
    · refine ⟨hs.types, hs.fd, hs.inside, ?_⟩
      intro x t d
      by_cases g : x = l
      · rw [if_pos g] at d; cases d
      · rw [if_neg g] at d; exact hs.ready x t d
  | config l t tt =>
    have e : step E w (.config l t tt) = .ok (setS w l t (config (w.s l t) tt).1, tag l t (config (w.s l t) tt).2) := rfl
    refine ⟨_, _, e, fin e (by intro l e; cases e), hp, _, _, ?_, hpr⟩
    have c1 : (config (w.s l t) tt).1.ty = tt := by unfold config; split; assumption; rfl
    have c2 : (config (w.s l t) tt).1.fd = (w.s l t).fd := by unfold config; split <;> rfl
    have c3 : (config (w.s l t) tt).1.reg = (w.s l t).reg := by unfold config; split <;> rfl
    refine ⟨?_, ?_, ?_, ?_⟩ <;> intro x y
    · by_cases g : x = l ∧ y = t
      · obtain ⟨rfl, rfl⟩ := g; rw [setS_self, if_pos ⟨rfl, rfl⟩, c1]
      · rw [setS_other _ g, if_neg g]; exact hs.types x y
    · by_cases g : x = l ∧ y = t
      · obtain ⟨rfl, rfl⟩ := g; rw [setS_self, c2]; exact hs.fd x y
      · rw [setS_other _ g]; exact hs.fd x y
    · by_cases g : x = l ∧ y = t
      · obtain ⟨rfl, rfl⟩ := g; rw [setS_self, c3]; exact hs.inside x y
      · rw [setS_other _ g]; exact hs.inside x y
    · intro d
      by_cases g : x = l
      · rw [if_pos g] at d; cases d
      · rw [if_neg g] at d
        rw [setS_other _ (fun e => g e.1)]; exact hs.ready x y d
  | update l =>
    obtain ⟨w2, b, rc, e, i1, i2, i3, i4, i5, U, o, _, ok, _⟩ := lineUpdate_ok hE hS h.inv h.cache (h.port l)
    have e' : step E w (.update l) = .ok (w2, b) := by simp only [step, e, Except.map]
    obtain ⟨k1, k2, k3⟩ := lineUpdate_works hE hW hC hc h.inv h.cache hs.fd (hp l) e
    refine ⟨w2, b, e', fin e' (by intro l e; cases e), by rw [i4]; exact hp, _, _, ?_, hpr⟩
    obtain ⟨tot, num, hk, htot, hall⟩ := ok k1
    obtain ⟨tot', ht', hk'⟩ := works_known hW w.upd
    have : tot = tot' := by rw [hk] at hk'; exact Option.some.inj hk'
    subst this
    have hnum : num = c := by have := hC w.upd tot ht' _ (hp l); rw [htot] at this; exact Option.some.inj this
    subst hnum
    refine ⟨fun x y => (U.ty x y).trans (hs.types x y), k2, ?_, ?_⟩
    · intro x y g
      refine Decidable.byContradiction fun hn => ?_
      rw [k3 x y (fun e => hn e.2)] at g
      exact hn (hs.inside x y g)
    · intro x y d g1 g2
      by_cases hx : x = l
      · subst hx
        by_cases hy : 1 ≤ y ∧ y ≤ num
        · obtain ⟨chan, b', u⟩ := hall y hy.1 hy.2
          exact (u.ok rfl).2.2.1 g2
        · rw [k3 x y (fun e => hy e.2)] at g1
          exact absurd (hs.inside x y g1) hy
      · rw [if_neg hx] at d
        rw [o x y hx] at g1 g2 ⊢
        exact hs.ready x y d g1 g2
  | event l t e =>
    obtain ⟨hd, hpr⟩ := hpr
    by_cases hr : (w.s l t).reg = true
    · obtain ⟨s', b, e1⟩ := fdCb_total (s := w.s l t) { e with wr := e.wr && (w.s l t).wr } (hs.ready l t hd hr)
      have e' : step E w (.event l t e) = .ok (setS w l t s', tag l t b) := by
        simp only [step]; rw [if_pos hr, if_neg (by rw [h.gone l]; intro e; cases e), e1]; rfl
      have v := fdCb_ok e1
      refine ⟨_, _, e', fin e' (by intro l e; cases e), hp, dirty, ty, ?_, hpr⟩
      have V := set_evd v
      exact ⟨fun x y => (V x y).ty.trans (hs.types x y), fun x y => by rw [(V x y).fd]; exact hs.fd x y, fun x y => by rw [(V x y).reg]; exact hs.inside x y,
        fun x y d => by rw [(V x y).reg, (V x y).ty, (V x y).lapd]; exact hs.ready x y d⟩
    · have e' : step E w (.event l t e) = .ok (w, []) := by simp only [step]; rw [if_neg hr]
      exact ⟨_, _, e', fin e' (by intro l e; cases e), hp, dirty, ty, hs, hpr⟩
  | send l t m =>
    obtain ⟨hd, ht, hpr⟩ := hpr
    rw [← hs.types l t] at ht
    have : ∃ s', send (w.s l t) m = .ok (s', []) := by
      unfold send
      rcases ht with e | e | e <;> rw [e] <;> exact ⟨_, rfl⟩
    obtain ⟨s', e1⟩ := this
    have e' : step E w (.send l t m) = .ok (setS w l t s', tag l t []) := by simp only [step, e1]; rfl
    obtain ⟨_, q1, q2, q3, q4, _⟩ := send_eq e1
    refine ⟨_, _, e', fin e' (by intro l e; cases e), hp, dirty, ty, ?_, hpr⟩
    have key : ∀ x y, ((setS w l t s').s x y).ty = (w.s x y).ty ∧ ((setS w l t s').s x y).fd = (w.s x y).fd ∧ ((setS w l t s').s x y).reg = (w.s x y).reg ∧ ((setS w l t s').s x y).lapd = (w.s x y).lapd := by
      intro x y
      by_cases g : x = l ∧ y = t
      · obtain ⟨rfl, rfl⟩ := g; rw [setS_self]; exact ⟨q1, q2, q3, q4⟩
      · rw [setS_other _ g]; exact ⟨rfl, rfl, rfl, rfl⟩
    exact ⟨fun x y => (key x y).1.trans (hs.types x y), fun x y => by rw [(key x y).2.1]; exact hs.fd x y, fun x y => by rw [(key x y).2.2.1]; exact hs.inside x y,
        fun x y d => by rw [(key x y).2.2.1, (key x y).1, (key x y).2.2.2]; exact hs.ready x y d⟩
  | timeout l t =>
    obtain ⟨hd, hpr⟩ := hpr
    by_cases hr : (w.s l t).timer = true
    · have e' : step E w (.timeout l t) = .ok (setS w l t (timeout (w.s l t)), tag l t []) := by
        simp only [step]; rw [if_pos hr, if_neg (by rw [h.gone l]; intro e; cases e)]; rfl
      refine ⟨_, _, e', fin e' (by intro l e; cases e), hp, dirty, ty, ?_, hpr⟩
      have q : timeout (w.s l t) = { w.s l t with timer := false, wr := (timeout (w.s l t)).wr } := by
        unfold timeout; rw [wantWrite_eq]
      have key : ∀ x y, ((setS w l t (timeout (w.s l t))).s x y).ty = (w.s x y).ty ∧ ((setS w l t (timeout (w.s l t))).s x y).fd = (w.s x y).fd ∧
          ((setS w l t (timeout (w.s l t))).s x y).reg = (w.s x y).reg ∧ ((setS w l t (timeout (w.s l t))).s x y).lapd = (w.s x y).lapd := by
        intro x y
        by_cases g : x = l ∧ y = t
        · obtain ⟨rfl, rfl⟩ := g; rw [setS_self, q]; exact ⟨rfl, rfl, rfl, rfl⟩
        · rw [setS_other _ g]; exact ⟨rfl, rfl, rfl, rfl⟩
      exact ⟨fun x y => (key x y).1.trans (hs.types x y), fun x y => by rw [(key x y).2.1]; exact hs.fd x y, fun x y => by rw [(key x y).2.2.1]; exact hs.inside x y,
        fun x y d => by rw [(key x y).2.2.1, (key x y).1, (key x y).2.2.2]; exact hs.ready x y d⟩
    · have e' : step E w (.timeout l t) = .ok (w, []) := by simp only [step]; rw [if_neg hr]
      exact ⟨_, _, e', fin e' (by intro l e; cases e), hp, dirty, ty, hs, hpr⟩
  | lapdTx l t d n pad x =>
    obtain ⟨hd, hpr⟩ := hpr
    by_cases hr : (w.s l t).lapd = true
    · have e' : step E w (.lapdTx l t d n pad x) = .ok (setS w l t (w.s l t), tag l t (lapdTx (w.s l t) d n pad x)) := by
        simp only [step]; rw [if_pos hr, if_neg (by rw [h.gone l]; intro e; cases e)]; rfl
      refine ⟨_, _, e', fin e' (by intro l e; cases e), hp, dirty, ty, ?_, hpr⟩
      have key : ∀ x y, (setS w l t (w.s l t)).s x y = w.s x y := by
        intro x y
        by_cases g : x = l ∧ y = t
        · obtain ⟨rfl, rfl⟩ := g; rw [setS_self]
        · rw [setS_other _ g]
      exact ⟨fun x y => by rw [key]; exact hs.types x y, fun x y => by rw [key]; exact hs.fd x y, fun x y => by rw [key]; exact hs.inside x y,
        fun x y d => by rw [key]; exact hs.ready x y d⟩
    · have e' : step E w (.lapdTx l t d n pad x) = .ok (w, []) := by simp only [step]; rw [if_neg hr]
      exact ⟨_, _, e', fin e' (by intro l e; cases e), hp, dirty, ty, hs, hpr⟩
  | release l => exact absurd hpr id

theorem run_safe {E : Env} (hE : NotStdin E) (hS : SmallSpans E) (hW : Works E) {c : Nat} (hC : Cards E c) (hc : c ≤ 32) : ∀ (ops : List Op) {w : W} {dirty : Nat → Bool} {ty : Nat → Nat → Ty},
    RInv E w → (∀ l, w.port l < 127) → SafeInv c dirty ty w → (∀ l p, Op.port l p ∈ ops → p < 127) → Proper dirty ty ops → ∃ w' a, run E w ops = .ok (w', a) := by
  intro ops
  induction ops with
  | nil => intro w _ _ _ _ _ _ _; exact ⟨w, [], rfl⟩
  | cons op ops ih =>
    intro w dirty ty h hp hs ho hpr
    obtain ⟨w1, a1, e1, h1, p1, d1, t1, s1, q1⟩ := step_safe hE hS hW hC hc h hp hs (fun l p e => ho l p (by rw [e]; exact List.mem_cons_self ..)) hpr
    obtain ⟨w2, a2, e2⟩ := ih h1 p1 s1 (fun l p m => ho l p (List.mem_cons_of_mem _ m)) q1
    exact ⟨w2, a1 ++ a2, by simp only [run, bind, Except.bind, e1, e2]⟩

end Verif.Dahdi
