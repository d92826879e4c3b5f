import Verif.Spec.Dahdi
set_option maxRecDepth 10000
namespace Verif.Dahdi

theorem bal_append : ∀ {a b : List Act} {s s' s'' : Int}, Balanced s a s' → Balanced s' b s'' → Balanced s (a ++ b) s'' := by
  intro a
  induction a with
  | nil => intro b s s' s'' h g; cases h; exact g
  | cons x a ih =>
    intro b s s' s'' h g
    cases x <;> simp only [Balanced, List.cons_append] at h ⊢
    · exact ⟨h.1, ih h.2 g⟩
    · exact ⟨h.1, h.2.1, ih h.2.2 g⟩
    · exact ⟨h.1, h.2.1, ih h.2.2 g⟩
    all_goals exact ih h g

/-- what the descriptor of a time slot is -/
structure SInv (s : Slot) : Prop where
  reg : s.reg = true → 0 < s.fd
  lapd : s.lapd = true → 0 < s.fd

theorem openFd_pos {s : Slot} (h : 0 < s.fd) : openFd s = s.fd := if_pos h
theorem openFd_neg {s : Slot} (h : ¬ 0 < s.fd) : openFd s = 0 := if_neg h

/-- opening -/
theorem openSlot_ok (s : Slot) (chan : Nat) (a : Ans) (hp : ∀ f, a.fd = some f → 0 < f) :
    Balanced (openFd s) (openSlot s chan a).2 (openFd (openSlot s chan a).1) ∧ (openSlot s chan a).1.reg = s.reg ∧ (openSlot s chan a).1.lapd = s.lapd ∧
      (openSlot s chan a).1.ty = s.ty ∧ (openSlot s chan a).1.q = s.q ∧ (openSlot s chan a).1.timer = s.timer ∧ (openSlot s chan a).1.wr = s.wr ∧
      (0 < s.fd → (openSlot s chan a).1.fd = s.fd) ∧ (openSlot s chan a).1.fd ≠ 0 ∧
      (∀ c f, Act.opened c f ∈ (openSlot s chan a).2 → c = chan) ∧ (∀ ty, wentOut ty (openSlot s chan a).2 = []) := by
  unfold openSlot
  by_cases h0 : s.fd = 0
  · rw [if_pos h0]
    cases ha : a.fd with
    | none =>
      refine ⟨?_, rfl, rfl, rfl, rfl, rfl, rfl, ?_, ?_, ?_, ?_⟩
      · show openFd s = openFd _
        rw [openFd_neg (by omega), openFd_neg (by simp [EIO])]
      · intro h; omega
      · simp [EIO]
      · intro c f h; cases h
      · intro ty; rfl
    | some f =>
      have hf := hp f ha
      refine ⟨?_, rfl, rfl, rfl, rfl, rfl, rfl, ?_, ?_, ?_, ?_⟩
      · refine ⟨openFd_neg (by omega), ?_⟩
        show f = openFd _
        rw [openFd_pos (by exact hf)]
      · intro h; omega
      · show f ≠ 0; omega
      · intro c g h; simp only [List.mem_singleton, Act.opened.injEq] at h; exact h.1
      · intro ty; rfl
  · rw [if_neg h0]
    exact ⟨rfl, rfl, rfl, rfl, rfl, rfl, rfl, fun _ => rfl, h0, (by intro c f h; cases h), fun ty => rfl⟩

theorem openSlot_works (s : Slot) (chan : Nat) (a : Ans) (hp : ∀ f, a.fd = some f → 0 < f) (ha : ∃ f, a.fd = some f) (h0 : 0 ≤ s.fd) :
    0 < (openSlot s chan a).1.fd := by
  obtain ⟨f, ha⟩ := ha
  unfold openSlot
  by_cases h : s.fd = 0
  · rw [if_pos h]; simp only [ha]; exact hp f ha
  · rw [if_neg h]; show 0 < s.fd; omega

/-- what one round of a line update does to a time slot -/
structure Upd (s s' : Slot) (chan : Nat) (a : List Act) (rc : Option Int) : Prop where
  inv : SInv s'
  bal : Balanced (openFd s) a (openFd s')
  ty : s'.ty = s.ty
  q : s'.q = s.q
  timer : s'.timer = s.timer
  chan : ∀ c f, Act.opened c f ∈ a → c = chan
  went : ∀ ty, wentOut ty a = []
  neg : s.fd < 0 → s.ty ≠ .none → rc ≠ none ∧ s'.fd = s.fd
  ok : rc = none → (s'.ty = .none → s'.fd = 0 ∧ s'.reg = false ∧ s'.lapd = false) ∧ (s'.ty ≠ .none → 0 < s'.fd ∧ s'.reg = true ∧ s'.wr = false) ∧
    (s'.ty = .sign → s'.lapd = true) ∧ (s'.ty = .hdlc → s'.lapd = s.lapd) ∧ (s'.ty = .trau ∨ s'.ty = .i460 ∨ s'.ty = .raw → s'.lapd = false)
  rc : rc ≠ none → s'.reg = false ∧ s'.ty ≠ .none
  noLapd : s.ty ≠ .sign → s.lapd = false → s'.lapd = false

theorem regSlot_ok (s : Slot) (a : Ans) (h : 0 ≤ s.fd) : regSlot s a = if a.reg then ({ s with reg := true }, none) else (s, some (-9)) := by
  unfold regSlot; rw [if_neg (by omega)]

theorem updSign_ok {s : Slot} {chan : Nat} {a : Ans} (h : SInv s) (hr : s.reg = false) (ht : s.ty = .sign) (hp : ∀ f, a.fd = some f → 0 < f) :
    Upd s (updSign s chan a).1 chan (updSign s chan a).2.1 (updSign s chan a).2.2 := by
  obtain ⟨o1, o2, o3, o4, o5, o6, o7, o8, o9, o10, o11⟩ := openSlot_ok s chan a hp
  have hneg : s.fd < 0 → openSlot s chan a = (s, []) := by intro g; unfold openSlot; rw [if_neg (by omega)]
  unfold updSign
  generalize ho : openSlot s chan a = o at *
  have hrr : o.1.reg = false := o2.trans hr
  by_cases hf : o.1.fd < 0
  · simp only [if_pos hf]
    refine ⟨⟨(by rw [hrr]; intro e; cases e), ?_⟩, o1, o4, o5, o6, o10, o11, ?_, (by intro e; cases e), fun _ => ⟨hrr, by rw [o4, ht]; intro e; cases e⟩, fun g => absurd ht g⟩
    · intro hl; have := h.lapd (o3.symm.trans hl); have := o8 this; omega
    · intro g _; exact ⟨(by intro e; cases e), by rw [hneg g]⟩
  · have hpos : 0 < o.1.fd := by omega
    have hneg' : ¬ s.fd < 0 := by intro g; rw [hneg g] at hf; exact hf g
    simp only [if_neg hf]
    by_cases hb : a.buf = false
    · simp only [if_pos hb]
      exact ⟨⟨fun e => hpos, fun _ => hpos⟩, o1, o4, o5, o6, o10, o11, fun g => absurd g hneg', (by intro e; cases e), fun _ => ⟨hrr, by show o.1.ty ≠ _; rw [o4, ht]; intro e; cases e⟩, fun g => absurd ht g⟩
    · simp only [if_neg hb]
      rw [regSlot_ok _ _ (by show (0:Int) ≤ o.1.fd; omega)]
      cases a.reg with
      | false =>
        exact ⟨⟨fun e => hpos, fun _ => hpos⟩, o1, o4, o5, o6, o10, o11, fun g => absurd g hneg', (by intro e; cases e), fun _ => ⟨hrr, by show o.1.ty ≠ _; rw [o4, ht]; intro e; cases e⟩, fun g => absurd ht g⟩
      | true =>
        have hty : o.1.ty = .sign := o4.trans ht
        refine ⟨⟨fun e => hpos, fun _ => hpos⟩, o1, o4, o5, o6, o10, o11, fun g => absurd g hneg', fun _ => ?_, fun e => absurd rfl e, fun g => absurd ht g⟩
        simp [hty, hpos]

theorem updHdlc_ok {s : Slot} {chan : Nat} {a : Ans} (h : SInv s) (hr : s.reg = false) (ht : s.ty = .hdlc) (hp : ∀ f, a.fd = some f → 0 < f) :
    Upd s (updHdlc s chan a).1 chan (updHdlc s chan a).2.1 (updHdlc s chan a).2.2 := by
  obtain ⟨o1, o2, o3, o4, o5, o6, o7, o8, o9, o10, o11⟩ := openSlot_ok s chan a hp
  have hneg : s.fd < 0 → openSlot s chan a = (s, []) := by intro g; unfold openSlot; rw [if_neg (by omega)]
  unfold updHdlc
  generalize ho : openSlot s chan a = o at *
  have hrr : o.1.reg = false := o2.trans hr
  by_cases hf : o.1.fd < 0
  · simp only [if_pos hf]
    refine ⟨⟨(by rw [hrr]; intro e; cases e), ?_⟩, o1, o4, o5, o6, o10, o11, ?_, (by intro e; cases e), fun _ => ⟨hrr, by rw [o4, ht]; intro e; cases e⟩, fun _ g => o3.trans g⟩
    · intro hl; have := h.lapd (o3.symm.trans hl); have := o8 this; omega
    · intro g _; exact ⟨(by intro e; cases e), by rw [hneg g]⟩
  · have hpos : 0 < o.1.fd := by omega
    have hneg' : ¬ s.fd < 0 := by intro g; rw [hneg g] at hf; exact hf g
    simp only [if_neg hf]
    by_cases hb : a.buf = false
    · simp only [if_pos hb]
      exact ⟨⟨fun e => hpos, fun _ => hpos⟩, o1, o4, o5, o6, o10, o11, fun g => absurd g hneg', (by intro e; cases e), fun _ => ⟨hrr, by show o.1.ty ≠ _; rw [o4, ht]; intro e; cases e⟩, fun _ g => o3.trans g⟩
    · simp only [if_neg hb]
      rw [regSlot_ok _ _ (by show (0:Int) ≤ o.1.fd; omega)]
      cases a.reg with
      | false =>
        exact ⟨⟨fun e => hpos, fun _ => hpos⟩, o1, o4, o5, o6, o10, o11, fun g => absurd g hneg', (by intro e; cases e), fun _ => ⟨hrr, by show o.1.ty ≠ _; rw [o4, ht]; intro e; cases e⟩, fun _ g => o3.trans g⟩
      | true =>
        have hty : o.1.ty = .hdlc := o4.trans ht
        refine ⟨⟨fun e => hpos, fun _ => hpos⟩, o1, o4, o5, o6, o10, o11, fun g => absurd g hneg', fun _ => ?_, fun e => absurd rfl e, fun _ g => o3.trans g⟩
        simp [hty, hpos, o3]

theorem updB_ok {s : Slot} {chan : Nat} {a : Ans} (h : SInv s) (hr : s.reg = false) (ht : s.ty = .trau ∨ s.ty = .i460 ∨ s.ty = .raw) (hp : ∀ f, a.fd = some f → 0 < f) :
    Upd s (updB s chan a).1 chan (updB s chan a).2.1 (updB s chan a).2.2 := by
  obtain ⟨o1, o2, o3, o4, o5, o6, o7, o8, o9, o10, o11⟩ := openSlot_ok { s with lapd := false } chan a hp
  have hneg : s.fd < 0 → openSlot { s with lapd := false } chan a = ({ s with lapd := false }, []) := by intro g; unfold openSlot; rw [if_neg (by show ¬ s.fd = 0; omega)]
  have o1 : Balanced (openFd s) (openSlot { s with lapd := false } chan a).2 (openFd (openSlot { s with lapd := false } chan a).1) := o1
  have hn : s.ty ≠ .none := by rcases ht with e | e | e <;> rw [e] <;> intro g <;> cases g
  unfold updB
  generalize ho : openSlot { s with lapd := false } chan a = o at *
  have hrr : o.1.reg = false := o2.trans hr
  have hll : o.1.lapd = false := o3
  have hty : o.1.ty = s.ty := o4
  by_cases hf : o.1.fd < 0
  · simp only [if_pos hf]
    refine ⟨⟨(by rw [hrr]; intro e; cases e), (by rw [hll]; intro e; cases e)⟩, o1, o4, o5, o6, o10, o11, ?_, (by intro e; cases e), fun _ => ⟨hrr, by rw [hty]; exact hn⟩, fun _ _ => hll⟩
    intro g _; exact ⟨(by intro e; cases e), by rw [hneg g]⟩
  · have hpos : 0 < o.1.fd := by omega
    have hneg' : ¬ s.fd < 0 := by intro g; rw [hneg g] at hf; exact hf g
    simp only [if_neg hf]
    by_cases hb : a.buf = false
    · simp only [if_pos hb]
      exact ⟨⟨fun e => hpos, fun _ => hpos⟩, o1, o4, o5, o6, o10, o11, fun g => absurd g hneg', (by intro e; cases e), fun _ => ⟨hrr, by rw [hty]; exact hn⟩, fun _ _ => hll⟩
    · simp only [if_neg hb]
      rw [regSlot_ok _ _ (by show (0:Int) ≤ o.1.fd; omega)]
      cases a.reg with
      | false =>
        exact ⟨⟨fun e => hpos, fun _ => hpos⟩, o1, o4, o5, o6, o10, o11, fun g => absurd g hneg', (by intro e; cases e), fun _ => ⟨hrr, by show o.1.ty ≠ _; rw [hty]; exact hn⟩, fun _ _ => hll⟩
      | true =>
        refine ⟨⟨fun e => hpos, fun _ => hpos⟩, o1, o4, o5, o6, o10, o11, fun g => absurd g hneg', fun _ => ?_, fun e => absurd rfl e, fun _ _ => hll⟩
        rcases ht with e | e | e <;> simp [hty, e, hpos, hll]

theorem updBody_none {s : Slot} {chan : Nat} {a : Ans} (h : s.ty = .none) : updBody s chan a = ((updNone s).1, (updNone s).2, none) := by simp only [updBody, h]
theorem updBody_sign {s : Slot} {chan : Nat} {a : Ans} (h : s.ty = .sign) : updBody s chan a = updSign s chan a := by simp only [updBody, h]
theorem updBody_hdlc {s : Slot} {chan : Nat} {a : Ans} (h : s.ty = .hdlc) : updBody s chan a = updHdlc s chan a := by simp only [updBody, h]
theorem updBody_b {s : Slot} {chan : Nat} {a : Ans} (h : s.ty = .trau ∨ s.ty = .i460 ∨ s.ty = .raw) : updBody s chan a = updB s chan a := by
  rcases h with h | h | h <;> simp only [updBody, h]

theorem ty_cases (t : Ty) : t = .none ∨ t = .sign ∨ t = .hdlc ∨ (t = .trau ∨ t = .i460 ∨ t = .raw) := by cases t <;> simp

theorem updBody_ok {s : Slot} {chan : Nat} {a : Ans} (h : SInv s) (hr : s.reg = false) (hp : ∀ f, a.fd = some f → 0 < f) :
    Upd s (updBody s chan a).1 chan (updBody s chan a).2.1 (updBody s chan a).2.2 := by
  rcases ty_cases s.ty with ht | ht | ht | ht
  · rw [updBody_none ht]
    refine ⟨⟨?_, (by intro e; cases e)⟩, ?_, rfl, rfl, rfl, ?_, ?_, ?_, ?_, ?_, fun _ _ => rfl⟩
    · intro e; simp only [updNone, hr] at e; cases e
    · show Balanced (openFd s) (if 0 < s.fd then [Act.closed s.fd] else []) 0
      by_cases g : 0 < s.fd
      · rw [if_pos g, openFd_pos g]; exact ⟨g, rfl, rfl⟩
      · rw [if_neg g, openFd_neg g]; exact rfl
    · intro c f m
      simp only [updNone] at m
      split at m
      · simp at m
      · cases m
    · intro ty; simp only [updNone]; split <;> rfl
    · intro _ g; exact absurd ht g
    · intro _
      simp [updNone, ht, hr]
    · intro g; exact absurd rfl g
  · rw [updBody_sign ht]; exact updSign_ok h hr ht hp
  · rw [updBody_hdlc ht]; exact updHdlc_ok h hr ht hp
  · rw [updBody_b ht]; exact updB_ok h hr ht hp

theorem updSlot_ok {s : Slot} {chan : Nat} {a : Ans} (h : SInv s) (hp : ∀ f, a.fd = some f → 0 < f) :
    Upd s (updSlot s chan a).1 chan (updSlot s chan a).2.1 (updSlot s chan a).2.2 := by
  have u := updBody_ok (s := { s with reg := false }) (chan := chan) (a := a) ⟨(by intro e; cases e), h.lapd⟩ rfl hp
  exact ⟨u.inv, u.bal, u.ty, u.q, u.timer, u.chan, u.went, u.neg, u.ok, u.rc, u.noLapd⟩

theorem updSlot_works {s : Slot} {chan : Nat} {a : Ans} (hp : ∀ f, a.fd = some f → 0 < f) (ha : ∃ f, a.fd = some f) (hb : a.buf = true) (hg : a.reg = true) (h0 : 0 ≤ s.fd) :
    (updSlot s chan a).2.2 = none := by
  have key : ∀ s' : Slot, 0 ≤ s'.fd → 0 < (openSlot s' chan a).1.fd := fun s' g => openSlot_works s' chan a hp ha g
  have k2 : ∀ o : Slot, 0 < o.fd → (regSlot o a).2 = none := by
    intro o g; rw [regSlot_ok _ _ (by omega), if_pos hg]
  unfold updSlot
  generalize hs : { s with reg := false } = s1
  have h1 : 0 ≤ s1.fd := by subst hs; exact h0
  rcases ty_cases s1.ty with ht | ht | ht | ht
  · rw [updBody_none ht]
  · have := key s1 h1
    rw [updBody_sign ht, updSign]
    simp only []
    rw [if_neg (by omega), if_neg (by rw [hb]; intro e; cases e)]
    exact k2 _ this
  · have := key s1 h1
    rw [updBody_hdlc ht, updHdlc]
    simp only []
    rw [if_neg (by omega), if_neg (by rw [hb]; intro e; cases e)]
    exact k2 _ this
  · have := key { s1 with lapd := false } h1
    rw [updBody_b ht, updB]
    simp only []
    rw [if_neg (by omega), if_neg (by rw [hb]; intro e; cases e)]
    exact k2 _ this

theorem updSlot_rc {s : Slot} {chan : Nat} {a : Ans} {rc : Int} (h : (updSlot s chan a).2.2 = some rc) : rc < 0 := by
  have k : ∀ {o : Slot}, (regSlot o a).2 = some rc → rc < 0 := by
    intro o g
    unfold regSlot at g
    split at g
    · rename_i k; cases g; exact k
    · split at g
      · cases g
      · cases g; decide
  unfold updSlot at h
  generalize { s with reg := false } = s1 at h
  rcases ty_cases s1.ty with ht | ht | ht | ht
  · rw [updBody_none ht] at h; cases h
  · rw [updBody_sign ht, updSign] at h
    simp only [] at h
    split at h
    · cases h; decide
    · split at h
      · cases h; decide
      · exact k h
  · rw [updBody_hdlc ht, updHdlc] at h
    simp only [] at h
    split at h
    · cases h; decide
    · split at h
      · cases h; decide
      · exact k h
  · rw [updBody_b ht, updB] at h
    simp only [] at h
    split at h
    · cases h; decide
    · split at h
      · cases h; decide
      · exact k h

/-! ### Events -/

/-- what an event does to a time slot -/
structure Evd (s s' : Slot) (a : List Act) : Prop where
  ty : s'.ty = s.ty
  fd : s'.fd = s.fd
  reg : s'.reg = s.reg
  lapd : s'.lapd = s.lapd
  bal : 0 < s.fd → Balanced s.fd a s.fd
  fifo : s.ty = .sign ∨ s.ty = .raw ∨ s.ty = .hdlc → s.q = wentOut s.ty a ++ s'.q
  other : s.ty = .none ∨ s.ty = .trau ∨ s.ty = .i460 → s'.q = s.q
  pend : (s.ty = .sign ∨ s.ty = .raw ∨ s.ty = .hdlc) → (s.q ≠ [] → s.wr = true ∨ s.timer = true) → s'.q ≠ [] → s'.wr = true ∨ s'.timer = true

theorem went_append (ty : Ty) : ∀ a b : List Act, wentOut ty (a ++ b) = wentOut ty a ++ wentOut ty b := by
  intro a b
  induction a with
  | nil => rfl
  | cons x a ih =>
    cases x <;> simp only [wentOut, List.cons_append, ih]
    · split
      · rfl
      · split <;> rfl
    · split <;> rfl

theorem Evd.refl (s : Slot) : Evd s s [] := ⟨rfl, rfl, rfl, rfl, fun _ => rfl, fun _ => rfl, fun _ => rfl, fun _ h => h⟩

theorem Evd.trans {a b c : Slot} {x y : List Act} (h : Evd a b x) (g : Evd b c y) : Evd a c (x ++ y) :=
  ⟨g.ty.trans h.ty, g.fd.trans h.fd, g.reg.trans h.reg, g.lapd.trans h.lapd,
   fun p => bal_append (h.bal p) (by have := g.bal (by rw [h.fd]; exact p); rw [h.fd] at this; exact this),
   fun t => by
     have h2 := g.fifo (by rw [h.ty]; exact t)
     rw [h.ty] at h2
     rw [went_append, List.append_assoc, ← h2]; exact h.fifo t,
   fun t => (g.other (by rw [h.ty]; exact t)).trans (h.other t),
   fun t p => g.pend (by rw [h.ty]; exact t) (h.pend t p)⟩

theorem exc_bal (x : Option Evt) (s : Int) : Balanced s (exception x) s := by
  cases x with
  | none => rfl
  | some e => cases e <;> exact rfl

theorem exc_went (ty : Ty) (x : Option Evt) : wentOut ty (exception x) = [] := by
  cases x with
  | none => rfl
  | some e => cases e <;> rfl

theorem exc_evd (s : Slot) (x : Option Evt) : Evd s s (exception x) :=
  ⟨rfl, rfl, rfl, rfl, fun _ => exc_bal x _, fun _ => by rw [exc_went]; rfl, fun _ => rfl, fun _ h => h⟩

theorem after_bal (n : Int) (x : Option Evt) (s : Int) : Balanced s (afterWrite n x) s := by
  unfold afterWrite; split
  · exact exc_bal x s
  · exact rfl

theorem after_went (ty : Ty) (n : Int) (x : Option Evt) : wentOut ty (afterWrite n x) = [] := by
  unfold afterWrite; split
  · exact exc_went ty x
  · rfl

theorem rx_evd (s : Slot) (d : List Byte) : Evd s s [.rx d] :=
  ⟨rfl, rfl, rfl, rfl, fun _ => rfl, fun _ => rfl, fun _ => rfl, fun _ h => h⟩

theorem signRead_ok {s s' : Slot} {e : Ev} {a : List Act} (h : signRead s e = .ok (s', a)) : Evd s s' a := by
  unfold signRead at h
  split at h
  · cases h; exact exc_evd s _
  · split at h
    · cases h; exact Evd.refl s
    · split at h
      · cases h; exact rx_evd s _
      · cases h

theorem hdlcRead_ok {s s' : Slot} {e : Ev} {a : List Act} (h : hdlcRead s e = .ok (s', a)) : Evd s s' a := by
  unfold hdlcRead at h
  split at h
  · cases h; exact exc_evd s _
  · split at h
    · cases h; exact Evd.refl s
    · cases h; exact rx_evd s _

theorem signWrite_ok {s s' : Slot} {a : List Act} (ht : s.ty = .sign) (h : signWrite s = .ok (s', a)) : Evd s s' a := by
  unfold signWrite at h
  split at h
  · rename_i hq
    cases h
    exact ⟨rfl, rfl, rfl, rfl, fun _ => rfl, fun _ => rfl, fun _ => rfl, fun _ _ g => absurd hq g⟩
  · rename_i m q hq
    split at h
    · cases h
      refine ⟨rfl, rfl, rfl, rfl, fun _ => rfl, fun _ => ?_, ?_, fun _ _ _ => .inr rfl⟩
      · rw [ht]; exact hq
      · rw [ht]; intro g; rcases g with g | g | g <;> cases g
    · cases h

theorem take_pad (m : List Byte) (x y : Byte) : (m ++ [x, y]).take ((m ++ [x, y]).length - 2) = m := by
  have : (m ++ [x, y]).length - 2 = m.length := by simp
  rw [this, List.take_left]

theorem hdlcWrite_ok {s : Slot} (e : Ev) (ht : s.ty = .hdlc) : Evd s (hdlcWrite s e).1 (hdlcWrite s e).2 := by
  unfold hdlcWrite
  split
  · rename_i hq
    exact ⟨rfl, rfl, rfl, rfl, fun _ => rfl, fun _ => rfl, fun _ => rfl, fun _ _ g => absurd hq g⟩
  · rename_i m q hq
    refine ⟨rfl, rfl, rfl, rfl, fun p => ⟨p, rfl, after_bal _ _ _⟩, fun _ => ?_, ?_, fun _ p _ => p (by rw [hq]; intro g; cases g)⟩
    · rw [ht]
      show s.q = (if Ty.hdlc = Ty.raw then _ else if Ty.hdlc = Ty.hdlc then _ else _) ++ q
      rw [if_neg (by intro g; cases g), if_pos rfl, take_pad]
      show s.q = (m :: wentOut Ty.hdlc (afterWrite e.n e.x3)) ++ q
      rw [after_went]
      exact hq
    · rw [ht]; intro g; rcases g with g | g | g <;> cases g

theorem rawWrite_ok {s : Slot} (e : Ev) (ht : s.ty = .raw) : Evd s (rawWrite s e).1 (rawWrite s e).2 := by
  unfold rawWrite
  split
  · rename_i hq
    exact ⟨rfl, rfl, rfl, rfl, fun _ => rfl, fun _ => rfl, fun _ => rfl, fun _ _ g => absurd hq g⟩
  · rename_i m q hq
    refine ⟨rfl, rfl, rfl, rfl, fun p => ⟨p, rfl, rfl⟩, fun _ => ?_, ?_, fun _ p _ => p (by rw [hq]; intro g; cases g)⟩
    · rw [ht]; exact hq
    · rw [ht]; intro g; rcases g with g | g | g <;> cases g

theorem muxWrite_evd {s : Slot} (d : List Byte) (n : Int) (ht : s.ty = .trau ∨ s.ty = .i460) : Evd s s [.write s.fd d n] := by
  refine ⟨rfl, rfl, rfl, rfl, fun p => ⟨p, rfl, rfl⟩, ?_, fun _ => rfl, fun _ h => h⟩
  rcases ht with e | e <;> rw [e] <;> intro g <;> rcases g with g | g | g <;> cases g

theorem rawRead_ok {s : Slot} (e : Ev) (ht : s.ty = .raw) : Evd s (rawRead s e).1 (rawRead s e).2 := by
  unfold rawRead
  split
  · exact Evd.refl s
  · split
    · exact (rx_evd s _).trans (rawWrite_ok e ht)
    · exact Evd.refl s

theorem i460Read_ok {s : Slot} (e : Ev) (ht : s.ty = .i460) : Evd s (i460Read s e).1 (i460Read s e).2 := by
  unfold i460Read
  split
  · exact Evd.refl s
  · split
    · exact (rx_evd s _).trans (muxWrite_evd _ _ (.inr ht))
    · exact Evd.refl s

theorem trauRead_ok {s : Slot} (e : Ev) (ht : s.ty = .trau) : Evd s (trauRead s e).1 (trauRead s e).2 := by
  unfold trauRead
  split
  · exact Evd.refl s
  · split
    · exact (rx_evd s _).trans (muxWrite_evd _ _ (.inl ht))
    · exact Evd.refl s

theorem evRead_ok {s s' : Slot} {e : Ev} {a : List Act} (h : evRead s e = .ok (s', a)) : Evd s s' a := by
  unfold evRead at h
  cases ht : s.ty with
  | none => simp only [ht] at h; cases h; exact Evd.refl s
  | sign => simp only [ht] at h; exact signRead_ok h
  | hdlc => simp only [ht] at h; exact hdlcRead_ok h
  | trau => simp only [ht] at h; have := trauRead_ok e ht; cases hh : trauRead s e; rw [hh] at h this; cases h; exact this
  | i460 => simp only [ht] at h; have := i460Read_ok e ht; cases hh : i460Read s e; rw [hh] at h this; cases h; exact this
  | raw => simp only [ht] at h; have := rawRead_ok e ht; cases hh : rawRead s e; rw [hh] at h this; cases h; exact this

theorem evWrite_ok {s s' : Slot} {e : Ev} {a : List Act} (h : evWrite s e = .ok (s', a)) : Evd s s' a := by
  unfold evWrite at h
  cases ht : s.ty with
  | none => simp only [ht] at h; cases h; exact Evd.refl s
  | sign => simp only [ht] at h; exact signWrite_ok ht h
  | hdlc => simp only [ht] at h; have := hdlcWrite_ok e ht; cases hh : hdlcWrite s e; rw [hh] at h this; cases h; exact this
  | trau => simp only [ht] at h; cases h; exact muxWrite_evd _ _ (.inl ht)
  | i460 => simp only [ht] at h; cases h; exact muxWrite_evd _ _ (.inr ht)
  | raw => simp only [ht] at h; have := rawWrite_ok e ht; cases hh : rawWrite s e; rw [hh] at h this; cases h; exact this

theorem opt_ok {b : Bool} {s s' : Slot} {a : List Act} {f : Slot → M (Slot × List Act)} (hf : ∀ {s' a}, f s = .ok (s', a) → Evd s s' a) (h : opt b s f = .ok (s', a)) :
    Evd s s' a := by
  unfold opt at h
  split at h
  · exact hf h
  · cases h; exact Evd.refl s

theorem fdCb_ok {s s' : Slot} {e : Ev} {a : List Act} (h : fdCb s e = .ok (s', a)) : Evd s s' a := by
  simp only [fdCb, bind, Except.bind] at h
  cases h1 : opt e.rd s (fun s => evRead s e) with
  | error f => rw [h1] at h; cases h
  | ok p1 =>
    obtain ⟨s1, a1⟩ := p1
    rw [h1] at h
    simp only at h
    cases h2 : opt e.wr s1 (fun s => evWrite s e) with
    | error f => rw [h2] at h; cases h
    | ok p2 =>
      obtain ⟨s2, a2⟩ := p2
      rw [h2] at h
      simp only at h
      cases h
      have e1 := opt_ok (fun g => evRead_ok g) h1
      have e2 := opt_ok (fun g => evWrite_ok g) h2
      refine Evd.trans (Evd.trans ?_ e1) e2
      split
      · exact exc_evd s _
      · exact Evd.refl s

/-- a registered time slot for which LAPD is ready never fails -/
theorem fdCb_total {s : Slot} (e : Ev) (h : s.ty = .sign → s.lapd = true) : ∃ s' a, fdCb s e = .ok (s', a) := by
  have r1 : ∀ s : Slot, (s.ty = .sign → s.lapd = true) → ∃ s' a, evRead s e = .ok (s', a) := by
    intro s h
    unfold evRead
    cases ht : s.ty with
    | sign =>
      simp only [signRead]
      split
      · exact ⟨_, _, rfl⟩
      · split
        · exact ⟨_, _, rfl⟩
        · rw [if_pos (h ht)]; exact ⟨_, _, rfl⟩
    | hdlc =>
      simp only [hdlcRead]
      split
      · exact ⟨_, _, rfl⟩
      · split <;> exact ⟨_, _, rfl⟩
    | none => exact ⟨_, _, rfl⟩
    | trau => exact ⟨_, _, rfl⟩
    | i460 => exact ⟨_, _, rfl⟩
    | raw => exact ⟨_, _, rfl⟩
  have r2 : ∀ s : Slot, (s.ty = .sign → s.lapd = true) → ∃ s' a, evWrite s e = .ok (s', a) := by
    intro s h
    unfold evWrite
    cases ht : s.ty with
    | sign =>
      simp only [signWrite]
      split
      · exact ⟨_, _, rfl⟩
      · rw [if_pos (h ht)]; exact ⟨_, _, rfl⟩
    | hdlc => exact ⟨_, _, rfl⟩
    | none => exact ⟨_, _, rfl⟩
    | trau => exact ⟨_, _, rfl⟩
    | i460 => exact ⟨_, _, rfl⟩
    | raw => exact ⟨_, _, rfl⟩
  have o1 : ∃ s' a, opt e.rd s (fun s => evRead s e) = .ok (s', a) := by
    unfold opt; split
    · exact r1 s h
    · exact ⟨_, _, rfl⟩
  obtain ⟨s1, a1, h1⟩ := o1
  have v := opt_ok (fun g => evRead_ok g) h1
  have hs1 : s1.ty = .sign → s1.lapd = true := by rw [v.ty, v.lapd]; exact h
  have o2 : ∃ s' a, opt e.wr s1 (fun s => evWrite s e) = .ok (s', a) := by
    unfold opt; split
    · exact r2 s1 hs1
    · exact ⟨_, _, rfl⟩
  obtain ⟨s2, a2, h2⟩ := o2
  exact ⟨s2, (if e.ex && decide (s.ty ≠ Ty.none) then exception e.x1 else []) ++ a1 ++ a2, by simp only [fdCb, bind, Except.bind, h1, h2]⟩

theorem Evd.inv {s s' : Slot} {a : List Act} (v : Evd s s' a) (h : SInv s) : SInv s' :=
  ⟨fun e => by rw [v.fd]; exact h.reg (v.reg ▸ e), fun e => by rw [v.fd]; exact h.lapd (v.lapd ▸ e)⟩

theorem wantWrite_eq (s : Slot) : wantWrite s = { s with wr := (wantWrite s).wr } := by
  unfold wantWrite; split <;> rfl

theorem wantWrite_wr {s : Slot} (h : s.ty = .sign ∨ s.ty = .raw ∨ s.ty = .hdlc) : (wantWrite s).wr = true := by
  unfold wantWrite
  rw [if_neg (by rcases h with e | e | e <;> rw [e] <;> intro g <;> rcases g with g | g <;> cases g)]

/-! ### Lines -/

theorem ofSlot_append (l t : Nat) (a b : Acts) : ofSlot l t (a ++ b) = ofSlot l t a ++ ofSlot l t b := by
  simp [ofSlot]

theorem ofSlot_tag (l t l' t' : Nat) (a : List Act) : ofSlot l t (tag l' t' a) = if l' = l ∧ t' = t then a else [] := by
  unfold ofSlot tag
  induction a with
  | nil => simp
  | cons x a ih =>
    by_cases h : l' = l ∧ t' = t
    · obtain ⟨rfl, rfl⟩ := h
      simp only [and_self, if_true] at ih ⊢
      simp only [List.map_cons]
      rw [List.filter_cons_of_pos (by simp), List.map_cons, ih]
    · rw [if_neg h] at ih ⊢
      simp only [List.map_cons]
      rw [List.filter_cons_of_neg (by simp only [decide_eq_true_eq, Prod.mk.injEq]; exact h), ih]

theorem setS_s (w : W) (l t : Nat) (x : Slot) (a b : Nat) : (setS w l t x).s a b = if a = l ∧ b = t then x else w.s a b := rfl
theorem setS_self (w : W) (l t : Nat) (x : Slot) : (setS w l t x).s l t = x := if_pos ⟨rfl, rfl⟩
theorem setS_other {w : W} {l t a b : Nat} (x : Slot) (h : ¬ (a = l ∧ b = t)) : (setS w l t x).s a b = w.s a b := if_neg h

def WInv (w : W) : Prop := ∀ l t, SInv (w.s l t)

/-- what a loop over time slots does -/
structure Ups (w w' : W) (a : Acts) : Prop where
  inv : WInv w'
  bal : ∀ x y, Balanced (openFd (w.s x y)) (ofSlot x y a) (openFd (w'.s x y))
  ty : ∀ x y, (w'.s x y).ty = (w.s x y).ty
  q : ∀ x y, (w'.s x y).q = (w.s x y).q
  timer : ∀ x y, (w'.s x y).timer = (w.s x y).timer
  noLapd : ∀ x y, (w.s x y).ty ≠ .sign → (w.s x y).lapd = false → (w'.s x y).lapd = false
  went : ∀ x y ty, wentOut ty (ofSlot x y a) = []
  rest : w'.cache = w.cache ∧ w'.port = w.port ∧ w'.gone = w.gone ∧ w'.upd = w.upd

theorem Ups.refl {w : W} (h : WInv w) : Ups w w [] := ⟨h, fun _ _ => rfl, fun _ _ => rfl, fun _ _ => rfl, fun _ _ => rfl, fun _ _ _ h => h, fun _ _ _ => rfl, rfl, rfl, rfl, rfl⟩

theorem Ups.trans {w1 w2 w3 : W} {a b : Acts} (h : Ups w1 w2 a) (g : Ups w2 w3 b) : Ups w1 w3 (a ++ b) :=
  ⟨g.inv, fun x y => by rw [ofSlot_append]; exact bal_append (h.bal x y) (g.bal x y), fun x y => (g.ty x y).trans (h.ty x y), fun x y => (g.q x y).trans (h.q x y),
   fun x y => (g.timer x y).trans (h.timer x y),
   fun x y n l => g.noLapd x y (by rw [h.ty]; exact n) (h.noLapd x y n l), fun x y ty => by rw [ofSlot_append, went_append, h.went, g.went]; rfl,
   g.rest.1.trans h.rest.1, g.rest.2.1.trans h.rest.2.1, g.rest.2.2.1.trans h.rest.2.2.1, g.rest.2.2.2.trans h.rest.2.2.2⟩

theorem ups_slot {w : W} (h : WInv w) {l t : Nat} {s' : Slot} {chan : Nat} {a : List Act} {rc : Option Int} (u : Upd (w.s l t) s' chan a rc) :
    Ups w (setS w l t s') (tag l t a) := by
  have key : ∀ x y, (x = l ∧ y = t) ∨ ¬ (x = l ∧ y = t) := fun x y => Decidable.em _
  refine ⟨?_, ?_, ?_, ?_, ?_, ?_, ?_, rfl, rfl, rfl, rfl⟩ <;> intro x y <;> rcases key x y with g | g
  all_goals first
    | (obtain ⟨rfl, rfl⟩ := g; rw [setS_self]; first
        | exact u.inv
        | (rw [ofSlot_tag, if_pos ⟨rfl, rfl⟩]; exact u.bal)
        | exact u.ty
        | exact u.q
        | exact u.timer
        | exact u.noLapd)
    | (rw [setS_other _ g]; done)
    | (rw [setS_other _ g]; first
        | exact h x y
        | (rw [ofSlot_tag, if_neg (by intro e; exact g ⟨e.1.symm, e.2.symm⟩)]; exact rfl)
        | rfl
        | (intro _ h; exact h))
    | (obtain ⟨rfl, rfl⟩ := g; intro ty; rw [ofSlot_tag, if_pos ⟨rfl, rfl⟩]; exact u.went ty)
    | (intro ty; rw [ofSlot_tag, if_neg (by intro e; exact g ⟨e.1.symm, e.2.symm⟩)]; rfl)

theorem updTs_ok {E : Env} (hE : NotStdin E) (n l base : Nat) : ∀ (k t : Nat) {w : W}, WInv w → t + k ≤ 33 →
    ∃ w' a rc, updTs E n l base k t w = .ok (w', a, rc) ∧ Ups w w' a ∧
      (∀ x y, ¬ (x = l ∧ t ≤ y ∧ y < t + k) → w'.s x y = w.s x y) ∧
      (∀ x y c f, ((x, y), Act.opened c f) ∈ a → x = l ∧ t ≤ y ∧ y < t + k ∧ c = base + (y - 1)) ∧
      (rc = 0 → ∀ y, t ≤ y → y < t + k → ∃ chan b, Upd (w.s l y) (w'.s l y) chan b none) ∧
      (rc = 0 ∨ rc < 0) := by
  intro k
  induction k with
  | zero =>
    intro t w h _
    exact ⟨w, [], 0, rfl, Ups.refl h, fun _ _ _ => rfl, (by intro x y c f m; cases m), (by intro _ y h1 h2; omega), .inl rfl⟩
  | succ k ih =>
    intro t w h ht
    have u := updSlot_ok (chan := base + (t - 1)) (h l t) (hE n t)
    have U := ups_slot h u
    have htag : ∀ x y c f, ((x, y), Act.opened c f) ∈ tag l t (updSlot (w.s l t) (base + (t - 1)) (E.ans n t)).2.1 → x = l ∧ y = t ∧ c = base + (t - 1) := by
      intro x y c f m
      simp only [tag, List.mem_map, Prod.mk.injEq] at m
      obtain ⟨z, m1, ⟨m2, m3⟩, m4⟩ := m
      subst m4
      exact ⟨m2.symm, m3.symm, u.chan c f m1⟩
    simp only [updTs]
    rw [if_neg (by simp only [NUM_TS]; omega)]
    cases hr : (updSlot (w.s l t) (base + (t - 1)) (E.ans n t)).2.2 with
    | some rc =>
      have hrc : rc < 0 := updSlot_rc hr
      refine ⟨_, _, rc, rfl, U, ?_, ?_, ?_, .inr hrc⟩
      · intro x y g; exact setS_other _ (by intro e; exact g ⟨e.1, by omega, by omega⟩)
      · intro x y c f m
        obtain ⟨e1, e2, e3⟩ := htag x y c f m
        exact ⟨e1, by omega, by omega, by rw [e3, e2]⟩
      · intro e; omega
    | none =>
      rw [hr] at u
      obtain ⟨w2, b, rc, e2, U2, o2, c2, k2, r2⟩ := ih (t + 1) (w := setS w l t (updSlot (w.s l t) (base + (t - 1)) (E.ans n t)).1) U.inv (by omega)
      refine ⟨w2, _, rc, by simp only [e2, bind, Except.bind], U.trans U2, ?_, ?_, ?_, r2⟩
      · intro x y g
        rw [o2 x y (by intro e; exact g ⟨e.1, by omega, by omega⟩)]
        exact setS_other _ (by intro e; exact g ⟨e.1, by omega, by omega⟩)
      · intro x y c f m
        rcases List.mem_append.1 m with m | m
        · obtain ⟨e1, e2, e3⟩ := htag x y c f m
          exact ⟨e1, by omega, by omega, by rw [e3, e2]⟩
        · obtain ⟨e1, e2, e3, e4⟩ := c2 x y c f m
          exact ⟨e1, by omega, by omega, e4⟩
      · intro e y h1 h2
        by_cases hy : y = t
        · subst hy
          rw [o2 l y (by intro g; omega), setS_self]
          exact ⟨_, _, u⟩
        · obtain ⟨chan, b', v⟩ := k2 e y (by omega) (by omega)
          rw [setS_other _ (by intro g; exact hy g.2)] at v
          exact ⟨chan, b', v⟩

/-! ### Channel numbers -/

theorem reread_spec (tot : Nat → Option Nat) : ∀ (k span base : Nat) (c : Cache), 1 ≤ span → base = 1 + chansOf tot (span - 1) →
    ∀ i, reread tot k span base c i = if span ≤ i + 1 ∧ i + 1 < span + k then (tot (i + 1)).map (fun n => (1 + chansOf tot i, n)) else c i := by
  intro k
  induction k with
  | zero => intro span base c _ _ i; simp only [reread]; rw [if_neg (by omega)]
  | succ k ih =>
    intro span base c hs hb i
    have hch : chansOf tot span = chansOf tot (span - 1) + (tot span).getD 0 := by
      obtain ⟨p, rfl⟩ : ∃ p, span = p + 1 := ⟨span - 1, by omega⟩
      rfl
    simp only [reread]
    cases ht : tot span with
    | none =>
      simp only []
      rw [ih (span + 1) base _ (by omega) (by rw [Nat.add_sub_cancel, hch, ht]; simpa using hb) i]
      by_cases h1 : span + 1 ≤ i + 1 ∧ i + 1 < span + 1 + k
      · rw [if_pos h1, if_pos (by omega)]
      · rw [if_neg h1]
        simp only [Cache.set]
        by_cases h2 : i = span - 1
        · subst h2
          rw [if_pos rfl, if_pos (by omega), show span - 1 + 1 = span by omega, ht]; rfl
        · rw [if_neg h2, if_neg (by omega)]
    | some n =>
      simp only []
      rw [ih (span + 1) (base + n) _ (by omega) (by rw [Nat.add_sub_cancel, hch, ht]; simp only [Option.getD_some]; omega) i]
      by_cases h1 : span + 1 ≤ i + 1 ∧ i + 1 < span + 1 + k
      · rw [if_pos h1, if_pos (by omega)]
      · rw [if_neg h1]
        simp only [Cache.set]
        by_cases h2 : i = span - 1
        · subst h2
          rw [if_pos rfl, if_pos (by omega), show span - 1 + 1 = span by omega, ht, hb]; rfl
        · rw [if_neg h2, if_neg (by omega)]

/-- the cache is what was last read -/
structure CInv (E : Env) (w : W) : Prop where
  none : known E w.upd = Option.none → ∀ i, w.cache i = Option.none
  some : ∀ tot, known E w.upd = some tot → ∀ i, w.cache i = if i < 127 then (tot (i + 1)).map (fun n => (1 + chansOf tot i, n)) else Option.none

theorem rereadCfg_ok {E : Env} {w : W} (h : CInv E w) : CInv E (rereadCfg E w) ∧ (rereadCfg E w).s = w.s ∧ (rereadCfg E w).port = w.port ∧
    (rereadCfg E w).gone = w.gone ∧ (rereadCfg E w).upd = w.upd + 1 := by
  unfold rereadCfg
  cases hc : E.ctl w.upd with
  | none =>
    refine ⟨⟨?_, ?_⟩, rfl, rfl, rfl, rfl⟩
    · intro g; simp only [known, hc] at g; exact h.none g
    · intro tot g; simp only [known, hc] at g; exact h.some tot g
  | some tot =>
    refine ⟨⟨?_, ?_⟩, rfl, rfl, rfl, rfl⟩
    · intro g; simp only [known, hc] at g; cases g
    · intro tot' g i
      simp only [known, hc] at g
      cases g
      simp only []
      rw [reread_spec tot (MAX_SPANS - 1) 1 1 w.cache (Nat.le_refl 1) rfl i]
      by_cases hi : i < 127
      · rw [if_pos (by simp only [MAX_SPANS]; omega), if_pos hi]
      · rw [if_neg (by simp only [MAX_SPANS]; omega), if_neg hi]
        cases hk : known E w.upd with
        | none => exact h.none hk i
        | some t2 => rw [h.some t2 hk i, if_neg hi]

theorem rereadCfg_upd (E : Env) (w : W) : (rereadCfg E w).upd = w.upd + 1 := by
  unfold rereadCfg; cases E.ctl w.upd <;> rfl

theorem lineUpdate_ok {E : Env} (hE : NotStdin E) (hS : SmallSpans E) {w : W} (h : WInv w) (hc : CInv E w) {l : Nat} (hp : w.port l < 128) :
    ∃ w' a rc, lineUpdate E w l = .ok (w', a, rc) ∧ WInv w' ∧ CInv E w' ∧ w'.upd = w.upd + 1 ∧ w'.port = w.port ∧ w'.gone = w.gone ∧
      Ups { w with cache := w'.cache, upd := w'.upd } w' a ∧
      (∀ x y, x ≠ l → w'.s x y = w.s x y) ∧
      (∀ x y c f, ((x, y), Act.opened c f) ∈ a → x = l ∧ ∃ tot num, known E (w.upd + 1) = some tot ∧ tot (w.port l + 1) = some num ∧ 1 ≤ y ∧ y ≤ num ∧ c = chanNr tot (w.port l) y) ∧
      (rc = 0 → ∃ tot num, known E (w.upd + 1) = some tot ∧ tot (w.port l + 1) = some num ∧ ∀ y, 1 ≤ y → y ≤ num → ∃ chan b, Upd (w.s l y) (w'.s l y) chan b none) ∧
      (rc = 0 ∨ rc < 0) := by
  obtain ⟨c1, s1, p1, g1, u1⟩ := rereadCfg_ok hc
  unfold lineUpdate
  have hp' : ¬ MAX_SPANS ≤ (rereadCfg E w).port l := by rw [p1]; simp only [MAX_SPANS]; omega
  simp only [if_neg hp']
  rw [p1]
  have hw : WInv (rereadCfg E w) := by intro x y; rw [s1]; exact h x y
  cases hq : (rereadCfg E w).cache (w.port l) with
  | none =>
    refine ⟨_, [], -EIO, rfl, hw, c1, u1, p1, g1, ?_, fun x y _ => by rw [s1], (by intro x y c f m; cases m), (by intro e; cases e), .inr (by decide)⟩
    refine ⟨hw, ?_, ?_, ?_, ?_, ?_, ?_, rfl, p1, g1, rfl⟩ <;> intro x y <;> try simp only [s1]
    · exact rfl
    · exact fun _ h => h
    · intro ty; rfl
  | some bn =>
    obtain ⟨base, num⟩ := bn
    have hkn : ∃ tot, known E (w.upd + 1) = some tot ∧ w.port l < 127 ∧ tot (w.port l + 1) = some num ∧ base = 1 + chansOf tot (w.port l) := by
      cases hk : known E (w.upd + 1) with
      | none => have := c1.none (by rw [u1]; exact hk) (w.port l); rw [hq] at this; cases this
      | some tot =>
        have := c1.some tot (by rw [u1]; exact hk) (w.port l)
        rw [hq] at this
        by_cases g : w.port l < 127
        · rw [if_pos g] at this
          cases hz : tot (w.port l + 1) with
          | none => rw [hz] at this; cases this
          | some z => rw [hz] at this; simp only [Option.map_some, Option.some.injEq, Prod.mk.injEq] at this; exact ⟨tot, rfl, g, by rw [hz, this.2], this.1⟩
        · rw [if_neg g] at this; cases this
    obtain ⟨tot, hk, hlt, htot, hbase⟩ := hkn
    have hnum : num ≤ 32 := by
      have key : ∀ n tot, known E n = some tot → ∀ p c, tot p = some c → c ≤ 32 := by
        intro n
        induction n with
        | zero => intro tot g; cases g
        | succ n ih =>
          intro tot g
          simp only [known] at g
          cases hcn : E.ctl n with
          | none => rw [hcn] at g; exact ih tot g
          | some t2 => rw [hcn] at g; cases g; exact hS n _ hcn
      exact key _ tot hk _ _ htot
    obtain ⟨w', a, rc, e, U, o, ch, ok, r⟩ := updTs_ok hE w.upd l base num 1 hw (by omega)
    refine ⟨w', a, rc, e, U.inv, ?_, ?_, ?_, ?_, ?_, ?_, ?_, ?_, r⟩
    · exact ⟨by rw [U.rest.2.2.2, U.rest.1]; exact c1.none, by rw [U.rest.2.2.2, U.rest.1]; exact c1.some⟩
    · rw [U.rest.2.2.2, u1]
    · rw [U.rest.2.1, p1]
    · rw [U.rest.2.2.1, g1]
    · refine ⟨U.inv, ?_, ?_, ?_, ?_, ?_, U.went, rfl, U.rest.2.1.trans p1, U.rest.2.2.1.trans g1, rfl⟩
      · intro x y; have := U.bal x y; rw [s1] at this; exact this
      · intro x y; have := U.ty x y; rw [s1] at this; exact this
      · intro x y; have := U.q x y; rw [s1] at this; exact this
      · intro x y; have := U.timer x y; rw [s1] at this; exact this
      · intro x y; have := U.noLapd x y; rw [s1] at this; exact this
    · intro x y g; rw [o x y (by intro e; exact g e.1), s1]
    · intro x y c f m
      obtain ⟨e1, e2, e3, e4⟩ := ch x y c f m
      refine ⟨e1, tot, num, hk, htot, e2, by omega, ?_⟩
      rw [e4, hbase, chanNr]; omega
    · intro e
      refine ⟨tot, num, hk, htot, ?_⟩
      intro y h1 h2
      have := ok e y h1 (by omega)
      rw [s1] at this; exact this

end Verif.Dahdi
