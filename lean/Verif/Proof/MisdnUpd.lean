import Verif.Proof.Misdn
set_option maxRecDepth 10000
namespace Verif.Misdn

/-! ### Line updates -/

/-- what the descriptor of a time slot is -/
structure SInv (ul : Bool) (s : Slot) : Prop where
  reg : s.reg = true → 0 < s.fd
  lapd : s.lapd = true → 0 < s.fd ∧ s.cur = .sign ∧ ul = true
  ready : s.reg = true → s.cur = .sign → ul = true → s.lapd = true
  none : s.cur = .none → s.fd = 0 ∧ s.reg = false ∧ s.lapd = false
  some : s.cur ≠ .none → s.fd ≠ 0

/-- what one round of a line update does to a time slot -/
structure Upd (ul : Bool) (dev t : Nat) (s s' : Slot) (a : List Act) (rc : Option Int) : Prop where
  inv : SInv ul s'
  bal : Balanced (openFd s.fd) a (openFd s'.fd)
  ty : s'.ty = s.ty
  q : s'.q = s.q
  timer : s'.timer = s.timer
  links : s'.links = s.links
  went : ∀ ty, wentOut ty a = []
  acc : accepted a = 0
  sig : sigs a = []
  same : s.cur = s.ty → s' = s ∧ a = [] ∧ rc = Option.none
  suits : ∀ f d c, Act.bind f d c ∈ a → d = dev ∧ ∃ p, Act.socket p f ∈ a ∧ Suits ul t s.ty p c
  cur : rc = Option.none → s'.cur = s.ty
  ok : rc = Option.none → AsConfigured ul { s with ty := s.cur } ∨ s.cur ≠ s.ty → AsConfigured ul s'
  rc : ∀ r, rc = Option.some r → r < 0

theorem tearDown_bal (s : Slot) : Balanced (openFd s.fd) (tearDown s).2 0 := by
  unfold tearDown
  by_cases g : 0 < s.fd
  · simp only [if_pos g, openFd_pos g]; exact ⟨g, rfl, rfl⟩
  · simp only [if_neg g, openFd_neg g]; exact rfl

theorem tearDown_acts (s : Slot) : (∀ ty, wentOut ty (tearDown s).2 = []) ∧ accepted (tearDown s).2 = 0 ∧ sigs (tearDown s).2 = [] ∧
    (∀ f d c, Act.bind f d c ∉ (tearDown s).2) := by
  unfold tearDown
  simp only []
  split
  · exact ⟨fun _ => rfl, rfl, rfl, by intro f d c m; simp at m⟩
  · exact ⟨fun _ => rfl, rfl, rfl, by intro f d c m; cases m⟩

theorem ty_cases (t : Ty) : t = .none ∨ t ≠ .none := Decidable.em _

theorem suits_ok (ul : Bool) (t : Nat) {ty : Ty} (h : ty ≠ .none) : Suits ul t ty (proto ul t ty) (channel ul t ty) := by
  cases ty with
  | none => exact absurd rfl h
  | sign =>
    cases ul
    · exact .kernel rfl
    · exact .library rfl
  | i460 => exact .i460
  | raw =>
    show Suits ul t .raw .bRaw (if t = 16 then 0 else t)
    by_cases g : t = 16
    · rw [if_pos g]; exact .dRaw g
    · rw [if_neg g]; exact .raw g
  | trau =>
    show Suits ul t .trau .bRaw (if t = 16 then 0 else t)
    by_cases g : t = 16
    · rw [if_pos g]; exact .dTrau g
    · rw [if_neg g]; exact .trau g
  | hdlc =>
    show Suits ul t .hdlc (if t = 16 then .ntE1 else .bHdlc) (if t = 16 then 0 else t)
    by_cases g : t = 16
    · rw [if_pos g, if_pos g]; exact .dHdlc g
    · rw [if_neg g, if_neg g]; exact .hdlc g

/-- what the state is after binding -/
theorem finish_ok (ul : Bool) (s : Slot) (a : Ans) (hp : 0 < s.fd) :
    (∃ r w, (finish ul s a).1 = { s with reg := r, wr := w } ∧ ((finish ul s a).2.2 = none → r = true) ∧ (s.reg = false → (finish ul s a).2.2 ≠ none → r = false)) ∧
      Balanced s.fd (finish ul s a).2.1 s.fd ∧ (∀ ty, wentOut ty (finish ul s a).2.1 = []) ∧ accepted (finish ul s a).2.1 = 0 ∧ sigs (finish ul s a).2.1 = [] ∧
      (∀ f d c, Act.bind f d c ∉ (finish ul s a).2.1) ∧ (∀ r, (finish ul s a).2.2 = some r → r < 0) ∧ (a.clear = true → a.reg = true → (finish ul s a).2.2 = none) := by
  have b1 : Balanced s.fd [Act.activate s.fd] s.fd := ⟨hp, rfl, rfl⟩
  have m1 : ∀ f d c, Act.bind f d c ∉ [Act.activate s.fd] := by intro f d c m; simp at m
  have m0 : ∀ f d c, Act.bind f d c ∉ ([] : List Act) := by intro f d c m; cases m
  unfold finish
  split
  · split
    · rename_i h
      refine ⟨⟨s.reg, s.wr, rfl, (by intro e; cases e), fun h _ => h⟩, rfl, fun _ => rfl, rfl, rfl, m0, ?_, ?_⟩
      · intro r e; cases e; decide
      · intro g; rw [h] at g; cases g
    · split
      · exact ⟨⟨true, false, rfl, fun _ => rfl, fun _ g => absurd rfl g⟩, rfl, fun _ => rfl, rfl, rfl, m0, (by intro r e; cases e), fun _ _ => rfl⟩
      · rename_i h
        refine ⟨⟨s.reg, false, rfl, (by intro e; cases e), fun h _ => h⟩, rfl, fun _ => rfl, rfl, rfl, m0, ?_, fun _ g => absurd g h⟩
        intro r e; cases e; decide
  · split
    · exact ⟨⟨true, false, rfl, fun _ => rfl, fun _ g => absurd rfl g⟩, b1, fun _ => rfl, rfl, rfl, m1, (by intro r e; cases e), fun _ _ => rfl⟩
    · rename_i h
      refine ⟨⟨s.reg, false, rfl, (by intro e; cases e), fun h _ => h⟩, b1, fun _ => rfl, rfl, rfl, m1, ?_, fun _ g => absurd g h⟩
      intro r e; cases e; decide

theorem asConf_of {ul : Bool} {x : Slot} (hn : x.ty ≠ .none) (hf : 0 < x.fd) (hr : x.reg = true) (hl : x.lapd = (decide (x.ty = .sign) && ul)) : AsConfigured ul x := by
  unfold AsConfigured
  cases ht : x.ty with
  | none => exact absurd ht hn
  | sign => rw [ht] at hl; exact ⟨hf, hr, by rw [hl]; simp⟩
  | trau => rw [ht] at hl; exact ⟨hf, hr, by rw [hl]; simp⟩
  | raw => rw [ht] at hl; exact ⟨hf, hr, by rw [hl]; simp⟩
  | hdlc => rw [ht] at hl; exact ⟨hf, hr, by rw [hl]; simp⟩
  | i460 => rw [ht] at hl; exact ⟨hf, hr, by rw [hl]; simp⟩

/-- setting up a time slot that is closed -/
theorem setUp_ok {ul : Bool} {dev t : Nat} {s : Slot} {a : Ans} (hf : s.fd = 0) (hr : s.reg = false) (hl : s.lapd = false) (hc : s.cur = s.ty) (hn : s.ty ≠ .none) (hp : a.fd ≠ 0) :
    let r := setUp ul dev t s a
    SInv ul r.1 ∧ Balanced 0 r.2.1 (openFd r.1.fd) ∧ r.1.ty = s.ty ∧ r.1.q = s.q ∧ r.1.timer = s.timer ∧ r.1.links = s.links ∧ (∀ ty, wentOut ty r.2.1 = []) ∧ accepted r.2.1 = 0 ∧
      sigs r.2.1 = [] ∧ (∀ f d c, Act.bind f d c ∈ r.2.1 → d = dev ∧ ∃ p, Act.socket p f ∈ r.2.1 ∧ Suits ul t s.ty p c) ∧ r.1.cur = s.ty ∧ (r.2.2 = none → AsConfigured ul r.1) ∧
      (∀ x, r.2.2 = some x → x < 0) ∧ (0 < a.fd → a.bind = true → a.clear = true → a.reg = true → r.2.2 = none) := by
  have hnc : s.cur ≠ .none := by rw [hc]; exact hn
  intro r
  show _ ∧ _
  have er : r = setUp ul dev t s a := rfl
  unfold setUp at er
  by_cases h0 : a.fd < 0
  · rw [if_pos h0] at er
    rw [er]
    refine ⟨⟨?_, ?_, ?_, ?_, ?_⟩, ?_, rfl, rfl, rfl, rfl, fun _ => rfl, rfl, rfl, (by intro f d c m; cases m), hc, (by intro e; cases e), ?_, fun g => by omega⟩
    · intro e; simp only [hr] at e; cases e
    · intro e; simp only [hl] at e; cases e
    · intro e; simp only [hr] at e; cases e
    · intro e; exact absurd e hnc
    · intro _; exact hp
    · show 0 = openFd a.fd
      rw [openFd_neg (by omega)]
    · intro x e; cases e; exact h0
  · have hpos : 0 < a.fd := by omega
    rw [if_neg h0] at er
    simp only [] at er
    by_cases hb : a.bind = false
    · rw [if_pos hb] at er
      rw [er]
      refine ⟨⟨?_, ?_, ?_, ?_, ?_⟩, ?_, rfl, rfl, rfl, rfl, fun _ => rfl, rfl, rfl, (by intro f d c m; simp at m), hc, (by intro e; cases e), ?_, fun _ g => by rw [hb] at g; cases g⟩
      · intro e; simp only [hr] at e; cases e
      · intro e
        simp only [Bool.and_eq_true, decide_eq_true_eq] at e
        exact ⟨hpos, hc.trans e.1, e.2⟩
      · intro e; simp only [hr] at e; cases e
      · intro e; exact absurd e hnc
      · intro _; exact hp
      · refine ⟨rfl, ?_⟩
        show a.fd = openFd a.fd
        rw [openFd_pos hpos]
      · intro x e; cases e; decide
    · rw [if_neg hb] at er
      obtain ⟨⟨rg, w, e1, e2, e3⟩, f2, f3, f4, f5, f6, f7, f8⟩ := finish_ok ul { s with fd := a.fd, lapd := decide (s.ty = .sign) && ul } a hpos
      rw [er]
      generalize finish ul { s with fd := a.fd, lapd := decide (s.ty = .sign) && ul } a = F at *
      simp only [e1]
      refine ⟨⟨?_, ?_, ?_, ?_, ?_⟩, ?_, trivial, trivial, trivial, trivial, fun ty => f3 ty, f4, f5, ?_, hc, ?_, f7, fun _ _ g1 g2 => f8 g1 g2⟩
      · intro _; exact hpos
      · intro e
        simp only [Bool.and_eq_true, decide_eq_true_eq] at e
        exact ⟨hpos, hc.trans e.1, e.2⟩
      · intro _ e1 e2
        have e1 : s.cur = .sign := e1
        rw [hc] at e1
        show (decide (s.ty = .sign) && ul) = true
        rw [e1, e2]; rfl
      · intro e; exact absurd e hnc
      · intro _; exact hp
      · refine ⟨rfl, hpos, rfl, ?_⟩
        show Balanced a.fd F.2.1 (openFd a.fd)
        rw [openFd_pos hpos]; exact f2
      · intro f d c m
        simp only [List.mem_cons, reduceCtorEq, false_or, Act.bind.injEq] at m
        rcases m with ⟨rfl, rfl, rfl⟩ | m
        · exact ⟨rfl, proto ul t s.ty, List.mem_cons_self .., suits_ok ul t hn⟩
        · exact absurd m (f6 f d c)
      · intro e
        refine asConf_of hn hpos ?_ rfl
        exact e2 e

theorem asConf_ty {s : Slot} {c : Ty} (h : s.ty = c) : ({ s with ty := c } : Slot) = s := by subst h; rfl

theorem updSlot_ok {ul : Bool} {dev t : Nat} {s : Slot} {a : Ans} (h : SInv ul s) (hp : a.fd ≠ 0) :
    Upd ul dev t s (updSlot ul dev t s a).1 (updSlot ul dev t s a).2.1 (updSlot ul dev t s a).2.2 := by
  obtain ⟨td1, td2, td3, td4⟩ := tearDown_acts s
  have tb := tearDown_bal s
  unfold updSlot
  by_cases hc : s.cur = s.ty
  · rw [if_pos hc]
    refine ⟨h, rfl, rfl, rfl, rfl, rfl, fun _ => rfl, rfl, rfl, fun _ => ⟨rfl, rfl, rfl⟩, (by intro f d c m; cases m), fun _ => hc, ?_, (by intro r e; cases e)⟩
    intro _ k
    rcases k with k | k
    · rw [hc] at k; exact k
    · exact absurd hc k
  · rw [if_neg hc]
    by_cases hn : s.ty = .none
    · rw [if_pos hn]
      refine ⟨⟨?_, ?_, ?_, ?_, ?_⟩, tb, rfl, rfl, rfl, rfl, td1, td2, td3, fun g => absurd g hc, ?_, fun _ => rfl, ?_, (by intro r e; cases e)⟩
      · intro e; cases e
      · intro e; cases e
      · intro e; cases e
      · intro _; exact ⟨rfl, rfl, rfl⟩
      · intro e; exact absurd hn e
      · intro f d c m; exact absurd m (td4 f d c)
      · intro _ _
        show AsConfigured ul (tearDown s).1
        unfold AsConfigured
        show (match s.ty with | .none => _ | .sign => _ | .trau => _ | .raw => _ | .hdlc => _ | .i460 => _)
        rw [hn]; exact ⟨rfl, rfl, rfl⟩
    · rw [if_neg hn]
      obtain ⟨k1, k2, k3, k4, k5, k6, k7, k8, k9, k10, k11, k12, k13, _⟩ := setUp_ok (ul := ul) (dev := dev) (t := t) (s := (tearDown s).1) (a := a) rfl rfl rfl rfl hn hp
      refine ⟨k1, bal_append tb k2, k3, k4, k5, k6, ?_, ?_, ?_, fun g => absurd g hc, ?_, fun _ => k11, fun e _ => k12 e, k13⟩
      · intro ty; rw [went_append, td1, k7]; rfl
      · rw [acc_append, td2, k8]
      · rw [sigs_append, td3, k9]; rfl
      · intro f d c m
        rcases List.mem_append.1 m with m | m
        · exact absurd m (td4 f d c)
        · obtain ⟨q1, p, q2, q3⟩ := k10 f d c m
          exact ⟨q1, p, List.mem_append_right _ q2, q3⟩

theorem updSlot_works {ul : Bool} {dev t : Nat} {s : Slot} {a : Ans} (ha : 0 < a.fd ∧ a.bind = true ∧ a.clear = true ∧ a.reg = true) : (updSlot ul dev t s a).2.2 = none := by
  unfold updSlot
  by_cases hc : s.cur = s.ty
  · rw [if_pos hc]
  · rw [if_neg hc]
    by_cases hn : s.ty = .none
    · rw [if_pos hn]
    · rw [if_neg hn]
      obtain ⟨_, _, _, _, _, _, _, _, _, _, _, _, _, k⟩ := setUp_ok (ul := ul) (dev := dev) (t := t) (s := (tearDown s).1) (a := a) rfl rfl rfl rfl hn (by omega)
      exact k ha.1 ha.2.1 ha.2.2.1 ha.2.2.2

theorem setS_s (w : W) (l t : Nat) (x : Slot) (a b : Nat) : (setS w l t x).s a b = if a = l ∧ b = t then x else w.s a b := rfl
theorem setS_self (w : W) (l t : Nat) (x : Slot) : (setS w l t x).s l t = x := if_pos ⟨rfl, rfl⟩
theorem setS_other {w : W} {l t a b : Nat} (x : Slot) (h : ¬ (a = l ∧ b = t)) : (setS w l t x).s a b = w.s a b := if_neg h
theorem setL_self (w : W) (l : Nat) (x : Line) : (setL w l x).line l = x := if_pos rfl
theorem setL_other {w : W} {l a : Nat} (x : Line) (h : ¬ a = l) : (setL w l x).line a = w.line a := if_neg h

theorem mem_slots {t : Nat} : t ∈ slots ↔ 1 ≤ t ∧ t ≤ 31 := by
  unfold slots
  simp only [List.mem_map, List.mem_range]
  constructor
  · rintro ⟨k, h, rfl⟩; omega
  · intro h; exact ⟨t - 1, by omega, by omega⟩

/-- a time slot that was never set up -/
def Idle (s : Slot) : Prop := s.cur = .none ∧ s.fd = 0 ∧ s.reg = false ∧ s.lapd = false

structure WInv (w : W) : Prop where
  slot : ∀ l t, SInv (w.ul l) (w.s l t)
  out : ∀ l t, t ∉ slots → Idle (w.s l t)

/-- what a loop over time slots does -/
structure Ups (ts : List Nat) (l : Nat) (w w' : W) (a : Acts) (rc : Int) : Prop where
  slot : ∀ x y, SInv (w.ul x) (w'.s x y)
  bal : ∀ x y, Balanced (openFd (w.s x y).fd) (ofSlot x y a) (openFd (w'.s x y).fd)
  ty : ∀ x y, (w'.s x y).ty = (w.s x y).ty
  q : ∀ x y, (w'.s x y).q = (w.s x y).q
  timer : ∀ x y, (w'.s x y).timer = (w.s x y).timer
  links : ∀ x y, (w'.s x y).links = (w.s x y).links
  went : ∀ x y ty, wentOut ty (ofSlot x y a) = []
  acc : ∀ x y, accepted (ofSlot x y a) = 0
  sig : ∀ x, signals x a = []
  same : ∀ x y, (w.s x y).cur = (w.s x y).ty → w'.s x y = w.s x y ∧ ofSlot x y a = []
  suits : ∀ x t f d c, Act.bind f d c ∈ ofSlot x t a → x = l ∧ d = (w.line l).port ∧ ∃ p, Act.socket p f ∈ ofSlot x t a ∧ Suits (w.ul l) t (w.s l t).ty p c
  cur : rc = 0 → ∀ t ∈ ts, (w'.s l t).cur = (w'.s l t).ty
  other : ∀ x y, ¬ (x = l ∧ y ∈ ts) → w'.s x y = w.s x y ∧ ofSlot x y a = []
  conf : ∀ y, AsConfigured (w.ul l) { w.s l y with ty := (w.s l y).cur } → rc = 0 → AsConfigured (w.ul l) { w'.s l y with ty := (w'.s l y).cur }
  rc : rc = 0 ∨ rc < 0
  rest : w'.ul = w.ul ∧ w'.line = w.line ∧ w'.upd = w.upd

/-- one time slot -/
theorem ups_slot {w : W} (h : ∀ x y, SInv (w.ul x) (w.s x y)) {l t : Nat} {s' : Slot} {a : List Act} {rc : Option Int} (u : Upd (w.ul l) (w.line l).port t (w.s l t) s' a rc) :
    Ups [t] l w (setS w l t s') (tag l t a) (rc.getD 0) := by
  have key : ∀ x y, (x = l ∧ y = t) ∨ ¬ (x = l ∧ y = t) := fun x y => Decidable.em _
  have tg : ∀ {x y}, ¬ (x = l ∧ y = t) → ofSlot x y (tag l t a) = [] := by
    intro x y g; rw [ofSlot_tag, if_neg (by intro e; exact g ⟨e.1.symm, e.2.symm⟩)]
  have ts : ofSlot l t (tag l t a) = a := by rw [ofSlot_tag, if_pos ⟨rfl, rfl⟩]
  have so : ∀ {x y}, ¬ (x = l ∧ y = t) → (setS w l t s').s x y = w.s x y := fun g => setS_other _ g
  refine ⟨?_, ?_, ?_, ?_, ?_, ?_, ?_, ?_, ?_, ?_, ?_, ?_, ?_, ?_, ?_, rfl, rfl, rfl⟩
  · intro x y
    rcases key x y with g | g
    · obtain ⟨rfl, rfl⟩ := g; rw [setS_self]; exact u.inv
    · rw [so g]; exact h x y
  · intro x y
    rcases key x y with g | g
    · obtain ⟨rfl, rfl⟩ := g; rw [setS_self, ts]; exact u.bal
    · rw [so g, tg g]; exact rfl
  · intro x y
    rcases key x y with g | g
    · obtain ⟨rfl, rfl⟩ := g; rw [setS_self]; exact u.ty
    · rw [so g]
  · intro x y
    rcases key x y with g | g
    · obtain ⟨rfl, rfl⟩ := g; rw [setS_self]; exact u.q
    · rw [so g]
  · intro x y
    rcases key x y with g | g
    · obtain ⟨rfl, rfl⟩ := g; rw [setS_self]; exact u.timer
    · rw [so g]
  · intro x y
    rcases key x y with g | g
    · obtain ⟨rfl, rfl⟩ := g; rw [setS_self]; exact u.links
    · rw [so g]
  · intro x y ty
    rcases key x y with g | g
    · obtain ⟨rfl, rfl⟩ := g; rw [ts]; exact u.went ty
    · rw [tg g]; rfl
  · intro x y
    rcases key x y with g | g
    · obtain ⟨rfl, rfl⟩ := g; rw [ts]; exact u.acc
    · rw [tg g]; rfl
  · intro x; rw [signals_tag, u.sig]; split <;> rfl
  · intro x y e
    rcases key x y with g | g
    · obtain ⟨rfl, rfl⟩ := g; rw [setS_self, ts]; exact ⟨(u.same e).1, (u.same e).2.1⟩
    · rw [so g, tg g]; exact ⟨rfl, rfl⟩
  · intro x y f d c m
    rcases key x y with g | g
    · obtain ⟨rfl, rfl⟩ := g
      rw [ts] at m ⊢
      obtain ⟨q1, q2⟩ := u.suits f d c m
      exact ⟨rfl, q1, q2⟩
    · rw [tg g] at m; cases m
  · intro e y m
    simp only [List.mem_singleton] at m
    subst m
    rw [setS_self, u.ty]
    refine u.cur ?_
    cases hrc : rc with
    | none => rfl
    | some r => rw [hrc] at e; have := u.rc r hrc; simp only [Option.getD_some] at e; omega
  · intro x y g
    have g : ¬ (x = l ∧ y = t) := fun e => g ⟨e.1, by rw [e.2]; exact List.mem_singleton_self t⟩
    rw [so g, tg g]; exact ⟨rfl, rfl⟩
  · intro y k e
    have hrc : rc = none := by
      cases hrc : rc with
      | none => rfl
      | some r => rw [hrc] at e; have := u.rc r hrc; simp only [Option.getD_some] at e; omega
    by_cases g : y = t
    · subst g
      rw [setS_self, u.cur hrc, asConf_ty u.ty]
      exact u.ok hrc (.inl k)
    · rw [so (fun e => g e.2)]; exact k
  · cases hrc : rc with
    | none => exact .inl rfl
    | some r => exact .inr (u.rc r hrc)

theorem Ups.trans {t l : Nat} {ts : List Nat} {w1 w2 w3 : W} {a b : Acts} {rc : Int} (h : Ups [t] l w1 w2 a 0) (g : Ups ts l w2 w3 b rc) (hn : t ∉ ts) : Ups (t :: ts) l w1 w3 (a ++ b) rc := by
  obtain ⟨r1, r2, r3⟩ := h.rest
  refine ⟨fun x y => by rw [← r1]; exact g.slot x y, fun x y => by rw [ofSlot_append]; exact bal_append (h.bal x y) (g.bal x y), fun x y => (g.ty x y).trans (h.ty x y), fun x y => (g.q x y).trans (h.q x y),
    fun x y => (g.timer x y).trans (h.timer x y), fun x y => (g.links x y).trans (h.links x y), fun x y ty => by rw [ofSlot_append, went_append, h.went, g.went]; rfl,
    fun x y => by rw [ofSlot_append, acc_append, h.acc, g.acc], fun x => by rw [signals_append, h.sig, g.sig]; rfl, ?_, ?_, ?_, ?_, ?_, g.rc, g.rest.1.trans r1, g.rest.2.1.trans r2, g.rest.2.2.trans r3⟩
  · intro x y e
    obtain ⟨h1, h2⟩ := h.same x y e
    obtain ⟨g1, g2⟩ := g.same x y (by rw [h1]; exact e)
    exact ⟨g1.trans h1, by rw [ofSlot_append, h2, g2]; rfl⟩
  · intro x y f d c m
    rw [ofSlot_append] at m ⊢
    rcases List.mem_append.1 m with m | m
    · obtain ⟨q1, q2, p, q3, q4⟩ := h.suits x y f d c m
      exact ⟨q1, q2, p, List.mem_append_left _ q3, q4⟩
    · obtain ⟨q1, q2, p, q3, q4⟩ := g.suits x y f d c m
      rw [r2] at q2
      rw [r1, h.ty] at q4
      exact ⟨q1, q2, p, List.mem_append_right _ q3, q4⟩
  · intro e y m
    rcases List.mem_cons.1 m with rfl | m
    · have := h.cur rfl y (List.mem_singleton_self y)
      rw [(g.same l y this).1]; exact this
    · exact g.cur e y m
  · intro x y k
    obtain ⟨h1, h2⟩ := h.other x y (fun e => k ⟨e.1, by rw [List.mem_singleton.1 e.2]; exact List.mem_cons_self ..⟩)
    obtain ⟨g1, g2⟩ := g.other x y (fun e => k ⟨e.1, List.mem_cons_of_mem _ e.2⟩)
    exact ⟨g1.trans h1, by rw [ofSlot_append, h2, g2]; rfl⟩
  · intro y k e
    have h1 := h.conf y k rfl
    have := g.conf y (by rw [r1]; exact h1) e
    rw [r1] at this; exact this

theorem Ups.weaken {t l : Nat} {ts : List Nat} {w1 w2 : W} {a : Acts} {rc : Int} (h : Ups [t] l w1 w2 a rc) (hr : rc ≠ 0) : Ups (t :: ts) l w1 w2 a rc :=
  ⟨h.slot, h.bal, h.ty, h.q, h.timer, h.links, h.went, h.acc, h.sig, h.same, h.suits, fun e => absurd e hr,
    fun x y k => h.other x y (fun e => k ⟨e.1, by rw [List.mem_singleton.1 e.2]; exact List.mem_cons_self ..⟩), h.conf, h.rc, h.rest⟩

theorem updTs_ok {E : Env} (hE : NotStdin E) (n l : Nat) : ∀ (ts : List Nat) {w : W}, ts.Nodup → (∀ x y, SInv (w.ul x) (w.s x y)) →
    Ups ts l w (updTs E n l ts w).1 (updTs E n l ts w).2.1 (updTs E n l ts w).2.2 := by
  intro ts
  induction ts with
  | nil =>
    intro w _ h
    exact ⟨h, fun _ _ => rfl, fun _ _ => rfl, fun _ _ => rfl, fun _ _ => rfl, fun _ _ => rfl, fun _ _ _ => rfl, fun _ _ => rfl, fun _ => rfl, fun _ _ _ => ⟨rfl, rfl⟩,
      (by intro x t f d c m; cases m), (by intro _ t m; cases m), fun _ _ _ => ⟨rfl, rfl⟩, fun _ k _ => k, .inl rfl, rfl, rfl, rfl⟩
  | cons t ts ih =>
    intro w hn h
    have u := updSlot_ok (dev := (w.line l).port) (t := t) (h l t) (hE.1 n t)
    have U := ups_slot h u
    simp only [updTs]
    cases hr : (updSlot (w.ul l) (w.line l).port t (w.s l t) (E.ans n t)).2.2 with
    | some rc =>
      rw [hr] at U
      have := u.rc rc hr
      exact U.weaken (show rc ≠ 0 by omega)
    | none =>
      rw [hr] at U
      exact U.trans (ih (List.nodup_cons.1 hn).2 (fun x y => U.slot x y)) (List.nodup_cons.1 hn).1

theorem updTs_works {E : Env} (n l : Nat) : ∀ (ts : List Nat) (w : W), (∀ t ∈ ts, 0 < (E.ans n t).fd ∧ (E.ans n t).bind = true ∧ (E.ans n t).clear = true ∧ (E.ans n t).reg = true) →
    (updTs E n l ts w).2.2 = 0 := by
  intro ts
  induction ts with
  | nil => intro w _; rfl
  | cons t ts ih =>
    intro w h
    have u := updSlot_works (ul := w.ul l) (dev := (w.line l).port) (t := t) (s := w.s l t) (h t (List.mem_cons_self ..))
    simp only [updTs, u]
    exact ih _ (fun t m => h t (List.mem_cons_of_mem _ m))

theorem slots_nodup : slots.Nodup := by decide

/-- the D-channel -/
theorem dummyCh_ok {E : Env} (hE : NotStdin E) (n : Nat) (ul sign : Bool) (x : Line) :
    Balanced (openFd x.dummy) (dummyCh E n ul sign x).2.1 (openFd (dummyCh E n ul sign x).1.dummy) ∧ (dummyCh E n ul sign x).1 = { x with dummy := (dummyCh E n ul sign x).1.dummy } ∧
      sigs (dummyCh E n ul sign x).2.1 = [] ∧ (∀ r, (dummyCh E n ul sign x).2.2 = some r → r < 0) ∧
      ((dummyCh E n ul sign x).2.2 = none → (0 < (dummyCh E n ul sign x).1.dummy ↔ (sign = true ∧ ul = true))) ∧
      (∀ f d c, Act.bind f d c ∈ (dummyCh E n ul sign x).2.1 → d = x.port ∧ c = 0 ∧ Act.socket .ntE1 f ∈ (dummyCh E n ul sign x).2.1) ∧
      (0 < (E.dummy n).1 → (E.dummy n).2 = true → (dummyCh E n ul sign x).2.2 = none) ∧ wentOut .none (dummyCh E n ul sign x).2.1 = [] := by
  have h0 := hE.2 n
  unfold dummyCh
  by_cases hs : (sign && ul) = true
  · rw [if_pos hs]
    have hs' : sign = true ∧ ul = true := by simpa using hs
    by_cases hd : x.dummy ≤ 0
    · rw [if_pos hd]
      by_cases h1 : (E.dummy n).1 < 0
      · rw [if_pos h1]
        refine ⟨?_, rfl, rfl, ?_, (by intro e; cases e), (by intro f d c m; cases m), fun g => by omega, rfl⟩
        · show openFd x.dummy = openFd (E.dummy n).1
          rw [openFd_neg (by omega), openFd_neg (by omega)]
        · intro r e; cases e; exact h1
      · rw [if_neg h1]
        have hp : 0 < (E.dummy n).1 := by omega
        by_cases h2 : (E.dummy n).2 = true
        · rw [if_pos h2]
          refine ⟨⟨openFd_neg (by omega), hp, rfl, (openFd_pos hp).symm⟩, rfl, rfl, (by intro r e; cases e), fun _ => ⟨fun _ => hs', fun _ => hp⟩, ?_, fun _ _ => rfl, rfl⟩
          intro f d c m
          simp only [List.mem_cons, reduceCtorEq, false_or, Act.bind.injEq, List.not_mem_nil, or_false] at m
          obtain ⟨rfl, rfl, rfl⟩ := m
          exact ⟨rfl, rfl, List.mem_cons_self ..⟩
        · rw [if_neg h2]
          refine ⟨⟨openFd_neg (by omega), (openFd_pos hp).symm⟩, rfl, rfl, ?_, (by intro e; cases e), (by intro f d c m; simp at m), fun _ g => absurd g h2, rfl⟩
          intro r e; cases e; decide
    · rw [if_neg hd]
      exact ⟨rfl, rfl, rfl, (by intro r e; cases e), fun _ => ⟨fun _ => hs', fun _ => by show 0 < x.dummy; omega⟩, (by intro f d c m; cases m), fun _ _ => rfl, rfl⟩
  · rw [if_neg hs]
    have hs' : ¬ (sign = true ∧ ul = true) := by simpa using hs
    by_cases hd : 0 < x.dummy
    · rw [if_pos hd]
      refine ⟨?_, rfl, rfl, (by intro r e; cases e), fun _ => ⟨fun g => by simp at g, fun g => absurd g hs'⟩, (by intro f d c m; simp at m), fun _ _ => rfl, rfl⟩
      show Balanced (openFd x.dummy) [Act.closed x.dummy] (openFd (-1))
      rw [openFd_pos hd]; exact ⟨hd, rfl, rfl⟩
    · rw [if_neg hd]
      exact ⟨rfl, rfl, rfl, (by intro r e; cases e), fun _ => ⟨fun g => absurd g hd, fun g => absurd g hs'⟩, (by intro f d c m; cases m), fun _ _ => rfl, rfl⟩

/-- what a line update does -/
structure LUp (l : Nat) (w w' : W) (a : Acts) (rc : Int) : Prop where
  inv : WInv w'
  ul : w'.ul = w.ul
  bal : ∀ x y, 1 ≤ y → Balanced (openFd (w.s x y).fd) (ofSlot x y a) (openFd (w'.s x y).fd)
  dch : ∀ x, Balanced (openFd (w.line x).dummy) (ofSlot x 0 a) (openFd (w'.line x).dummy)
  line : ∀ x, w'.line x = { w.line x with dummy := (w'.line x).dummy }
  oline : ∀ x, x ≠ l → w'.line x = w.line x
  ty : ∀ x y, (w'.s x y).ty = (w.s x y).ty
  q : ∀ x y, (w'.s x y).q = (w.s x y).q
  timer : ∀ x y, (w'.s x y).timer = (w.s x y).timer
  links : ∀ x y, (w'.s x y).links = (w.s x y).links
  went : ∀ x y ty, 1 ≤ y → wentOut ty (ofSlot x y a) = []
  acc : ∀ x y, 1 ≤ y → accepted (ofSlot x y a) = 0
  sig : ∀ x, signals x a = []
  same : ∀ x y, 1 ≤ y → (w.s x y).cur = (w.s x y).ty → w'.s x y = w.s x y ∧ ofSlot x y a = []
  suits : ∀ x t f d c, 1 ≤ t → Act.bind f d c ∈ ofSlot x t a → x = l ∧ d = (w.line l).port ∧ ∃ p, Act.socket p f ∈ ofSlot x t a ∧ Suits (w.ul l) t (w.s l t).ty p c
  suits0 : ∀ x f d c, Act.bind f d c ∈ ofSlot x 0 a → x = l ∧ d = (w.line l).port ∧ c = 0 ∧ Act.socket .ntE1 f ∈ ofSlot x 0 a
  cur : rc = 0 → ∀ t ∈ slots, (w'.s l t).cur = (w'.s l t).ty
  conf : ∀ y, AsConfigured (w.ul l) { w.s l y with ty := (w.s l y).cur } → rc = 0 → AsConfigured (w.ul l) { w'.s l y with ty := (w'.s l y).cur }
  dummy : rc = 0 → (0 < (w'.line l).dummy ↔ ((∃ t ∈ slots, (w.s l t).ty = .sign) ∧ w.ul l = true))
  other : ∀ x y, ¬ (x = l ∧ y ∈ slots) → w'.s x y = w.s x y
  rc : rc = 0 ∨ rc < 0

theorem zero_slots : (0 : Nat) ∉ slots := by decide

theorem lineUpdate_ok {E : Env} (hE : NotStdin E) {w : W} (h : WInv w) (l : Nat) (hc : ∀ n r, E.card n = some r → r < 0) :
    LUp l w (lineUpdate E w l).1 (lineUpdate E w l).2.1 (lineUpdate E w l).2.2 := by
  unfold lineUpdate
  simp only []
  cases hca : E.card w.upd with
  | some rc =>
    simp only []
    have := hc _ _ hca
    refine ⟨⟨h.slot, h.out⟩, rfl, fun _ _ _ => rfl, fun _ => rfl, fun _ => rfl, fun _ _ => rfl, fun _ _ => rfl, fun _ _ => rfl, fun _ _ => rfl, fun _ _ => rfl, fun _ _ _ _ => rfl, fun _ _ _ => rfl, fun _ => rfl,
      fun _ _ _ _ => ⟨rfl, rfl⟩, (by intro x t f d c _ m; cases m), (by intro x f d c m; cases m), fun e => by omega, fun _ _ e => by omega, fun e => by omega, fun _ _ _ => rfl, .inr this⟩
  | none =>
    simp only []
    generalize hsg : slots.any (fun t => decide ((w.s l t).ty = .sign)) = sg
    have hsg' : sg = true ↔ ∃ t ∈ slots, (w.s l t).ty = .sign := by
      rw [← hsg]; simp
    obtain ⟨d1, d2, d3, d4, d5, d6, _, d8⟩ := dummyCh_ok hE w.upd (w.ul l) sg (w.line l)
    generalize hD : dummyCh E w.upd (w.ul l) sg (w.line l) = D at *
    have tg0 : ∀ {x y}, 1 ≤ y → ofSlot x y (tag l 0 D.2.1) = [] := by
      intro x y g; rw [ofSlot_tag, if_neg (by intro e; omega)]
    have dch : ∀ x, Balanced (openFd (w.line x).dummy) (ofSlot x 0 (tag l 0 D.2.1)) (openFd ((setL { w with upd := w.upd + 1 } l D.1).line x).dummy) := by
      intro x
      by_cases g : x = l
      · subst g; rw [setL_self, ofSlot_tag, if_pos ⟨rfl, rfl⟩]; exact d1
      · rw [setL_other _ g, ofSlot_tag, if_neg (by intro e; exact g e.1.symm)]; exact rfl
    have ln : ∀ x, (setL { w with upd := w.upd + 1 } l D.1).line x = { w.line x with dummy := ((setL { w with upd := w.upd + 1 } l D.1).line x).dummy } := by
      intro x
      by_cases g : x = l
      · subst g; rw [setL_self]; exact d2
      · rw [setL_other _ g]
    have su0 : ∀ x f d c, Act.bind f d c ∈ ofSlot x 0 (tag l 0 D.2.1) → x = l ∧ d = (w.line l).port ∧ c = 0 ∧ Act.socket .ntE1 f ∈ ofSlot x 0 (tag l 0 D.2.1) := by
      intro x f d c m
      rw [ofSlot_tag] at m ⊢
      by_cases g : l = x
      · rw [if_pos ⟨g, rfl⟩] at m ⊢; exact ⟨g.symm, d6 f d c m⟩
      · rw [if_neg (fun e => g e.1)] at m; cases m
    have sg0 : ∀ x, signals x (tag l 0 D.2.1) = [] := by intro x; rw [signals_tag, d3]; split <;> rfl
    cases hr : D.2.2 with
    | some rc =>
      simp only []
      have := d4 _ hr
      refine ⟨⟨h.slot, h.out⟩, rfl, fun x y g => by rw [tg0 g]; exact rfl, dch, ln, fun x g => setL_other _ g, fun _ _ => rfl, fun _ _ => rfl, fun _ _ => rfl, fun _ _ => rfl, fun x y _ g => by rw [tg0 g]; rfl,
        fun x y g => by rw [tg0 g]; rfl, sg0, fun x y g _ => by rw [tg0 g]; exact ⟨rfl, rfl⟩, ?_, su0, fun e => by omega, fun _ _ e => by omega, fun e => by omega, fun _ _ _ => rfl, .inr this⟩
      intro x t f d c g m; rw [tg0 g] at m; cases m
    | none =>
      simp only []
      have U := updTs_ok hE w.upd l slots (w := setL { w with upd := w.upd + 1 } l D.1) slots_nodup h.slot
      generalize updTs E w.upd l slots (setL { w with upd := w.upd + 1 } l D.1) = r2 at *
      obtain ⟨u1, u2, u3⟩ := U.rest
      have oz : ∀ x, ofSlot x 0 r2.2.1 = [] := fun x => (U.other x 0 (fun e => zero_slots e.2)).2
      refine ⟨⟨fun x y => by rw [u1]; exact U.slot x y, ?_⟩, u1, ?_, ?_, ?_, ?_, U.ty, U.q, U.timer, U.links, ?_, ?_, ?_, ?_, ?_, ?_, U.cur, U.conf, ?_, fun x y g => (U.other x y g).1, U.rc⟩
      · intro x y g
        rw [(U.other x y (fun e => g e.2)).1]; exact h.out x y g
      · intro x y g; rw [ofSlot_append, tg0 g]; exact U.bal x y
      · intro x; rw [ofSlot_append, oz, List.append_nil, u2]; exact dch x
      · intro x; rw [u2]; exact ln x
      · intro x g; rw [u2]; exact setL_other _ g
      · intro x y ty g; rw [ofSlot_append, tg0 g]; exact U.went x y ty
      · intro x y g; rw [ofSlot_append, tg0 g]; exact U.acc x y
      · intro x; rw [signals_append, sg0, U.sig]; rfl
      · intro x y g e
        obtain ⟨q1, q2⟩ := U.same x y e
        exact ⟨q1, by rw [ofSlot_append, tg0 g, q2]; rfl⟩
      · intro x t f d c g m
        rw [ofSlot_append, tg0 g] at m ⊢
        obtain ⟨q1, q2, q3⟩ := U.suits x t f d c m
        have e : ((setL { w with upd := w.upd + 1 } l D.1).line l).port = (w.line l).port := by rw [setL_self, d2]
        rw [e] at q2
        exact ⟨q1, q2, q3⟩
      · intro x f d c m
        rw [ofSlot_append, oz, List.append_nil] at m ⊢
        exact su0 x f d c m
      · intro _
        rw [u2, setL_self, d5 hr, hsg']

theorem lineUpdate_works {E : Env} (hE : NotStdin E) (hW : Works E) (w : W) (l : Nat) : (lineUpdate E w l).2.2 = 0 := by
  unfold lineUpdate
  simp only [(hW.1 w.upd).1]
  obtain ⟨_, _, _, _, _, _, d7, _⟩ := dummyCh_ok hE w.upd (w.ul l) (slots.any (fun t => decide ((w.s l t).ty = .sign))) (w.line l)
  rw [d7 (hW.1 w.upd).2.1 (hW.1 w.upd).2.2]
  simp only []
  exact updTs_works w.upd l slots _ (fun t _ => hW.2 t w.upd)

end Verif.Misdn
