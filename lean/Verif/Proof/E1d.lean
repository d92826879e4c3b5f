import Verif.Spec.E1d
/-! Invariants of the model of the osmo-e1d driver -/
set_option maxRecDepth 10000
namespace Verif.E1d

theorem bal_append : ∀ {a b : List Act} {s s' s'' : Opened}, Balanced s a s' → Balanced s' b s'' → Balanced s (a ++ b) s'' := by
  intro a
  induction a with
  | nil => intro b s s' s'' h h2; cases h; exact h2
  | cons x a ih =>
    intro b s s' s'' h h2
    cases x <;> first | exact ⟨h.1, ih h.2 h2⟩ | exact ih (s := s) h h2

/-- the descriptors and their bookkeeping -/
structure Tab (w : W) : Prop where
  used : ∀ l t, (w.ts l t).fd ≠ none → w.used l = true ∧ l < 256 ∧ t ∈ slots
  nodup : w.opened.Nodup
  mem : ∀ f, f ∈ w.opened ↔ ∃ l t m, (w.ts l t).fd = some (f, m)
  inj : ∀ l t m l' t' m' f, (w.ts l t).fd = some (f, m) → (w.ts l' t').fd = some (f, m') → l = l' ∧ t = t'
  lt : ∀ f, f ∈ w.opened → f < w.next

structure Inv (w : W) : Prop extends Tab w where
  reg : ∀ l t, (w.ts l t).reg = (w.ts l t).fd.isSome

/-- the parts of the state that closing a descriptor does not change -/
structure Same (w w' : W) : Prop where
  ty : ∀ l t, (w'.ts l t).ty = (w.ts l t).ty
  q : ∀ l t, (w'.ts l t).q = (w.ts l t).q
  used : w'.used = w.used
  fsm : w'.fsm = w.fsm
  upd : w.upd ≤ w'.upd

theorem Same.refl (w : W) : Same w w := ⟨fun _ _ => rfl, fun _ _ => rfl, rfl, rfl, Nat.le_refl _⟩

theorem Same.trans {a b c : W} (h : Same a b) (g : Same b c) : Same a c :=
  ⟨fun l t => (g.ty l t).trans (h.ty l t), fun l t => (g.q l t).trans (h.q l t), g.used.trans h.used, g.fsm.trans h.fsm,
    Nat.le_trans h.upd g.upd⟩

theorem setTs_ts (w : W) (l t : Nat) (x : Ts) (a b : Nat) : (setTs w l t x).ts a b = if a = l ∧ b = t then x else w.ts a b := rfl

theorem setTs_self (w : W) (l t : Nat) (x : Ts) : (setTs w l t x).ts l t = x := if_pos ⟨rfl, rfl⟩

theorem closeFd_ts (w : W) (f : Nat) : (closeFd w f).ts = w.ts := rfl

theorem openIn_setTs (w : W) (l t : Nat) (x : Ts) : openIn (setTs w l t x) = (openIn w).set l t (x.fd.map (·.2)) := by
  funext a b
  simp only [openIn, setTs_ts, Opened.set]
  split <;> rfl

theorem set_same (s : Opened) (l t : Nat) : s.set l t (s l t) = s := by
  funext a b
  simp only [Opened.set]
  split
  · rename_i h; rw [h.1, h.2]
  · rfl

/-- a change that keeps the descriptor -/
theorem tab_keep {w : W} (h : Tab w) (l t : Nat) (x : Ts) (hf : x.fd = (w.ts l t).fd) : Tab (setTs w l t x) := by
  have e : ∀ a b, ((setTs w l t x).ts a b).fd = (w.ts a b).fd := by
    intro a b
    rw [setTs_ts]
    split
    · rename_i g; rw [g.1, g.2, hf]
    · rfl
  refine ⟨?_, h.nodup, ?_, ?_, h.lt⟩
  · intro a b; rw [e]; exact h.used a b
  · intro f; simp only [e]; exact h.mem f
  · intro a b m a' b' m' f; rw [e, e]; exact h.inj a b m a' b' m' f

/-- a descriptor is closed -/
theorem tab_close {w : W} (h : Tab w) (l t f : Nat) (m : Mode) (hf : (w.ts l t).fd = some (f, m)) (x : Ts) (hx : x.fd = none) :
    Tab (closeFd (setTs w l t x) f) := by
  have e : ∀ a b, ((closeFd (setTs w l t x) f).ts a b) = if a = l ∧ b = t then x else w.ts a b := fun _ _ => rfl
  have mem : ∀ g, g ∈ (closeFd (setTs w l t x) f).opened ↔ g ∈ w.opened ∧ g ≠ f := by
    intro g; simp [closeFd, setTs, List.mem_filter]
  refine ⟨?_, ?_, ?_, ?_, ?_⟩
  · intro a b
    rw [e]
    split
    · intro g; exact absurd hx g
    · exact h.used a b
  · exact h.nodup.filter _
  · intro g
    rw [mem, h.mem]
    constructor
    · rintro ⟨⟨a, b, m', g1⟩, g2⟩
      refine ⟨a, b, m', ?_⟩
      rw [e]
      have : ¬ (a = l ∧ b = t) := by
        rintro ⟨rfl, rfl⟩
        rw [hf] at g1
        cases g1
        exact g2 rfl
      rw [if_neg this]; exact g1
    · rintro ⟨a, b, m', g1⟩
      rw [e] at g1
      by_cases c : a = l ∧ b = t
      · rw [if_pos c, hx] at g1; cases g1
      · rw [if_neg c] at g1
        refine ⟨⟨a, b, m', g1⟩, ?_⟩
        intro eq
        subst eq
        exact c (h.inj a b m' l t m g g1 hf)
  · intro a b m1 a' b' m2 g g1 g2
    rw [e] at g1 g2
    by_cases c : a = l ∧ b = t
    · rw [if_pos c, hx] at g1; cases g1
    · by_cases c' : a' = l ∧ b' = t
      · rw [if_pos c', hx] at g2; cases g2
      · rw [if_neg c] at g1; rw [if_neg c'] at g2
        exact h.inj a b m1 a' b' m2 g g1 g2
  · intro g hg
    exact h.lt g ((mem g).1 hg).1

theorem inv_close {w : W} (h : Inv w) (l t f : Nat) (m : Mode) (hf : (w.ts l t).fd = some (f, m)) (x : Ts) (hx : x.fd = none) (hr : x.reg = false) :
    Inv (closeFd (setTs w l t x) f) := by
  refine ⟨tab_close h.toTab l t f m hf x hx, ?_⟩
  intro a b
  show ((setTs w l t x).ts a b).reg = ((setTs w l t x).ts a b).fd.isSome
  rw [setTs_ts]
  split
  · rw [hx, hr]; rfl
  · exact h.reg a b

/-- a descriptor is opened -/
theorem tab_open {w : W} (h : Tab w) (l t : Nat) (m : Mode) (hf : (w.ts l t).fd = none) (hu : w.used l = true) (hl : l < 256) (ht : t ∈ slots) (x : Ts)
    (hx : x.fd = some (w.next, m)) : Tab { setTs w l t x with next := w.next + 1, opened := w.opened ++ [w.next] } := by
  have e : ∀ a b, (({ setTs w l t x with next := w.next + 1, opened := w.opened ++ [w.next] } : W).ts a b) = if a = l ∧ b = t then x else w.ts a b := fun _ _ => rfl
  have fresh : ∀ a b m', (w.ts a b).fd ≠ some (w.next, m') := by
    intro a b m' g
    have := h.lt w.next ((h.mem _).2 ⟨a, b, m', g⟩)
    omega
  refine ⟨?_, ?_, ?_, ?_, ?_⟩
  · intro a b
    rw [e]
    split
    · rename_i g; intro _; rw [g.1, g.2]; exact ⟨hu, hl, ht⟩
    · exact h.used a b
  · refine List.nodup_append.2 ⟨h.nodup, by simp, ?_⟩
    intro a ha b hb
    have := h.lt a ha
    simp at hb
    omega
  · intro f
    show f ∈ w.opened ++ [w.next] ↔ _
    rw [List.mem_append, h.mem]
    constructor
    · rintro (⟨a, b, m', g⟩ | g)
      · refine ⟨a, b, m', ?_⟩
        rw [e, if_neg]
        · exact g
        · rintro ⟨rfl, rfl⟩; rw [hf] at g; cases g
      · rw [List.mem_singleton] at g
        refine ⟨l, t, m, ?_⟩
        rw [e, if_pos ⟨rfl, rfl⟩, hx, g]
    · rintro ⟨a, b, m', g⟩
      rw [e] at g
      by_cases c : a = l ∧ b = t
      · rw [if_pos c, hx] at g
        cases g
        exact .inr (List.mem_singleton.2 rfl)
      · rw [if_neg c] at g
        exact .inl ⟨a, b, m', g⟩
  · intro a b m1 a' b' m2 f g1 g2
    rw [e] at g1 g2
    by_cases c : a = l ∧ b = t
    · rw [if_pos c, hx] at g1
      cases g1
      by_cases c' : a' = l ∧ b' = t
      · exact ⟨c.1.trans c'.1.symm, c.2.trans c'.2.symm⟩
      · rw [if_neg c'] at g2; exact absurd g2 (fresh a' b' m2)
    · rw [if_neg c] at g1
      by_cases c' : a' = l ∧ b' = t
      · rw [if_pos c', hx] at g2; cases g2; exact absurd g1 (fresh a b m1)
      · rw [if_neg c'] at g2; exact h.inj a b m1 a' b' m2 f g1 g2
  · intro f g
    show f < w.next + 1
    have g : f ∈ w.opened ++ [w.next] := g
    rw [List.mem_append, List.mem_singleton] at g
    rcases g with g | g
    · have := h.lt f g; omega
    · omega

theorem same_setTs {w : W} {l t : Nat} {x : Ts} (ht : x.ty = (w.ts l t).ty) (hq : x.q = (w.ts l t).q) : Same w (setTs w l t x) := by
  refine ⟨?_, ?_, rfl, rfl, Nat.le_refl _⟩
  · intro a b; rw [setTs_ts]; split
    · rename_i g; rw [g.1, g.2, ht]
    · rfl
  · intro a b; rw [setTs_ts]; split
    · rename_i g; rw [g.1, g.2, hq]
    · rfl

/-- the result of closing descriptors: everything else is unchanged -/
structure Closed (w w' : W) (a : List Act) : Prop where
  inv : Inv w'
  bal : Balanced (openIn w) a (openIn w')
  same : Same w w'
  upd : w'.upd = w.upd
  conn : w'.conn = w.conn
  cli : w'.cli = w.cli
  timer : w'.timer = w.timer
  wr : ∀ l t, (w'.ts l t).wr = (w.ts l t).wr
  lapd : ∀ l t, (w'.ts l t).lapd = (w.ts l t).lapd
  acts : ∀ x ∈ a, ∃ l t, x = Act.closed l t
  gone : ∀ l t, (w.ts l t).fd = none → (w'.ts l t).fd = none
  keep : ∀ l t, (w'.ts l t).fd ≠ none → (w'.ts l t).fd = (w.ts l t).fd

theorem Closed.refl {w : W} (h : Inv w) : Closed w w [] :=
  ⟨h, rfl, Same.refl w, rfl, rfl, rfl, rfl, fun _ _ => rfl, fun _ _ => rfl, (by intro x g; cases g), fun _ _ g => g, fun _ _ _ => rfl⟩

theorem Closed.trans {w1 w2 w3 : W} {a b : List Act} (h : Closed w1 w2 a) (g : Closed w2 w3 b) : Closed w1 w3 (a ++ b) :=
  ⟨g.inv, bal_append h.bal g.bal, h.same.trans g.same, g.upd.trans h.upd, g.conn.trans h.conn, g.cli.trans h.cli, g.timer.trans h.timer,
    fun l t => (g.wr l t).trans (h.wr l t), fun l t => (g.lapd l t).trans (h.lapd l t), (by intro x m; exact (List.mem_append.1 m).elim (h.acts x) (g.acts x)), fun l t n => g.gone l t (h.gone l t n),
    fun l t n => by rw [g.keep l t n]; exact h.keep l t (by rw [← g.keep l t n]; exact n)⟩

theorem bal_closed {w : W} {l t f : Nat} {m : Mode} {x : Ts} (hf : (w.ts l t).fd = some (f, m)) (hx : x.fd = none) :
    Balanced (openIn w) [.closed l t] (openIn (closeFd (setTs w l t x) f)) := by
  refine ⟨by simp [openIn, hf], ?_⟩
  show (openIn w).set l t none = openIn (setTs w l t x)
  rw [openIn_setTs, hx]; rfl

theorem termTs_ok {w : W} (h : Inv w) (l t : Nat) :
    ∃ w' a, termTs w l t = .ok (w', a) ∧ Closed w w' a ∧ (w'.ts l t).fd = none := by
  simp only [termTs]
  split
  · rename_i hf; exact ⟨w, [], rfl, Closed.refl h, hf⟩
  · rename_i f m hf
    have hr : (w.ts l t).reg = true := by rw [h.reg, hf]; rfl
    rw [if_pos hr]
    refine ⟨_, _, rfl, ⟨inv_close h l t f m hf _ rfl rfl, bal_closed hf rfl, ?_, rfl, rfl, rfl, rfl, ?_, ?_, (by intro x g; cases g with | head => exact ⟨l, t, rfl⟩ | tail _ g => cases g), ?_, ?_⟩, ?_⟩
    · have := same_setTs (w := w) (l := l) (t := t) (x := { w.ts l t with fd := none, reg := false }) rfl rfl
      exact ⟨this.ty, this.q, this.used, this.fsm, this.upd⟩
    · intro a b; show ((setTs w l t _).ts a b).wr = _; rw [setTs_ts]; split
      · rename_i g; rw [g.1, g.2]
      · rfl
    · intro a b; show ((setTs w l t _).ts a b).lapd = _; rw [setTs_ts]; split
      · rename_i g; rw [g.1, g.2]
      · rfl
    · intro a b g; show ((setTs w l t _).ts a b).fd = _; rw [setTs_ts]; split
      · rfl
      · exact g
    · intro a b; show ((setTs w l t _).ts a b).fd ≠ none → ((setTs w l t _).ts a b).fd = _; rw [setTs_ts]; split
      · intro g; exact absurd rfl g
      · intro _; rfl
    · show ((setTs w l t _).ts l t).fd = none; rw [setTs_ts, if_pos ⟨rfl, rfl⟩]

theorem termTss_ok : ∀ (ts : List Nat) {w : W} (_ : Inv w) (l : Nat),
    ∃ w' a, termTss w l ts = .ok (w', a) ∧ Closed w w' a ∧ ∀ t ∈ ts, (w'.ts l t).fd = none := by
  intro ts
  induction ts with
  | nil => intro w h l; exact ⟨w, [], rfl, Closed.refl h, by intro t g; cases g⟩
  | cons t ts ih =>
    intro w h l
    obtain ⟨w1, a, e1, c1, n1⟩ := termTs_ok h l t
    obtain ⟨w2, b, e2, c2, n2⟩ := ih c1.inv l
    refine ⟨w2, a ++ b, ?_, c1.trans c2, ?_⟩
    · simp only [termTss, e1, bind, Except.bind, e2]
    · intro s g
      cases g with
      | head => exact c2.gone l t n1
      | tail _ g => exact n2 s g

theorem termLines_ok : ∀ (ls : List Nat) {w : W} (_ : Inv w),
    ∃ w' a, termLines w ls = .ok (w', a) ∧ Closed w w' a ∧ ∀ l ∈ ls, w.used l = true → ∀ t ∈ slots, (w'.ts l t).fd = none := by
  intro ls
  induction ls with
  | nil => intro w h; exact ⟨w, [], rfl, Closed.refl h, by intro t g; cases g⟩
  | cons l ls ih =>
    intro w h
    by_cases hu : w.used l = true
    · obtain ⟨w1, a, e1, c1, n1⟩ := termTss_ok slots h l
      obtain ⟨w2, b, e2, c2, n2⟩ := ih c1.inv
      refine ⟨w2, a ++ b, ?_, c1.trans c2, ?_⟩
      · simp only [termLines, if_pos hu, e1, bind, Except.bind, e2]
      · intro k g uk t ht
        cases g with
        | head => exact c2.gone l t (n1 t ht)
        | tail _ g => exact n2 k g (by rw [c1.same.used]; exact uk) t ht
    · obtain ⟨w2, b, e2, c2, n2⟩ := ih h
      refine ⟨w2, b, ?_, c2, ?_⟩
      · simp only [termLines, if_neg hu, e2]
      · intro k g uk t ht
        cases g with
        | head => exact absurd uk hu
        | tail _ g => exact n2 k g uk t ht

/-- the state machine: the client exists if connected, the timer runs if the FSM exists and is not connected, and nothing is open then -/
structure Fsm (w : W) : Prop where
  cli : w.cli = w.conn
  timer : w.timer = (w.fsm && !w.conn)
  fsm : w.conn = true → w.fsm = true
  disc : w.conn = false → ∀ l t, (w.ts l t).fd = none

/-- what a step does to the descriptors -/
structure Did (w w' : W) (a : List Act) : Prop where
  inv : Inv w'
  fsm : Fsm w'
  bal : Balanced (openIn w) a (openIn w')

theorem Did.trans {w1 w2 w3 : W} {a b : List Act} (h : Did w1 w2 a) (g : Did w2 w3 b) : Did w1 w3 (a ++ b) :=
  ⟨g.inv, g.fsm, bal_append h.bal g.bal⟩

theorem written_closed {a : List Act} (h : ∀ x ∈ a, ∃ l t, x = Act.closed l t) (l t : Nat) : written l t a = [] := by
  induction a with
  | nil => rfl
  | cons x a ih =>
    obtain ⟨l', t', rfl⟩ := h x (List.mem_cons_self ..)
    exact ih (fun y g => h y (List.mem_cons_of_mem _ g))

theorem connLost_ok {w : W} (h : Inv w) (hf : Fsm w) :
    ∃ w' a, connLost w = .ok (w', a) ∧ Did w w' a ∧ Same w w' ∧ w'.conn = false ∧ w'.upd = w.upd ∧
      (∀ l t, (w'.ts l t).wr = (w.ts l t).wr) ∧ (∀ l t, (w'.ts l t).lapd = (w.ts l t).lapd) ∧ (∀ x ∈ a, ∃ l t, x = Act.closed l t) := by
  by_cases hc : w.conn = true
  · have h0 : Inv { w with cli := false } := ⟨⟨h.used, h.nodup, h.mem, h.inj, h.lt⟩, h.reg⟩
    obtain ⟨w1, a, e, c, n⟩ := termLines_ok (List.range 256) h0
    have ei : ∀ {w : W} {b c d : Bool}, Inv w → Inv { w with conn := b, timer := c, cli := d } :=
      fun h => ⟨⟨h.used, h.nodup, h.mem, h.inj, h.lt⟩, h.reg⟩
    refine ⟨{ w1 with conn := false, timer := true }, a, ?_, ⟨⟨⟨c.inv.used, c.inv.nodup, c.inv.mem, c.inv.inj, c.inv.lt⟩, c.inv.reg⟩, ⟨c.cli, ?_, ?_, ?_⟩, c.bal⟩,
      ⟨c.same.ty, c.same.q, c.same.used, c.same.fsm, c.same.upd⟩, rfl, c.upd, c.wr, c.lapd, c.acts⟩
    · simp only [connLost, if_pos hc, e, bind, Except.bind]
    · have : w1.fsm = true := c.same.fsm.trans (hf.fsm hc)
      simp [this]
    · intro g; cases g
    · intro _ l t
      show (w1.ts l t).fd = none
      cases hx : (w1.ts l t).fd with
      | none => rfl
      | some p =>
        have g : (w1.ts l t).fd ≠ none := by rw [hx]; intro e; cases e
        have u := c.inv.used l t g
        have := n l (List.mem_range.2 u.2.1) (by have := u.1; rw [c.same.used] at this; exact this) t u.2.2
        exact absurd this g
  · refine ⟨w, [], ?_, ⟨h, hf, rfl⟩, Same.refl w, by simpa using hc, rfl, fun _ _ => rfl, fun _ _ => rfl, by intro x g; cases g⟩
    simp only [connLost, if_neg hc]

/-- a change of one time slot in a line update -/
structure Upd (l t : Nat) (w w' : W) (a : List Act) : Prop where
  tab : Tab w'
  bal : Balanced (openIn w) a (openIn w')
  other : ∀ a b, ¬ (a = l ∧ b = t) → w'.ts a b = w.ts a b
  ty : (w'.ts l t).ty = (w.ts l t).ty
  q : (w'.ts l t).q = (w.ts l t).q
  used : w'.used = w.used
  fsm : w'.fsm = w.fsm
  conn : w'.conn = w.conn
  cli : w'.cli = w.cli
  timer : w'.timer = w.timer
  upd : w'.upd = w.upd
  acts : ∀ x ∈ a, (∃ l t, x = Act.closed l t) ∨ (∃ l t m, x = Act.opened l t m)

theorem Upd.trans {l t : Nat} {w1 w2 w3 : W} {a b : List Act} (h : Upd l t w1 w2 a) (g : Upd l t w2 w3 b) : Upd l t w1 w3 (a ++ b) :=
  ⟨g.tab, bal_append h.bal g.bal, fun x y n => (g.other x y n).trans (h.other x y n), g.ty.trans h.ty, g.q.trans h.q, g.used.trans h.used,
    g.fsm.trans h.fsm, g.conn.trans h.conn, g.cli.trans h.cli, g.timer.trans h.timer, g.upd.trans h.upd,
    (by intro x m; exact (List.mem_append.1 m).elim (h.acts x) (g.acts x))⟩

theorem Upd.refl {l t : Nat} {w : W} (h : Tab w) : Upd l t w w [] :=
  ⟨h, rfl, fun _ _ _ => rfl, rfl, rfl, rfl, rfl, rfl, rfl, rfl, rfl, (by intro x g; cases g)⟩

theorem upd_keep {w : W} (h : Tab w) (l t : Nat) (x : Ts) (hf : x.fd = (w.ts l t).fd) (ht : x.ty = (w.ts l t).ty) (hq : x.q = (w.ts l t).q) :
    Upd l t w (setTs w l t x) [] := by
  refine ⟨tab_keep h l t x hf, ?_, fun a b n => if_neg n, ?_, ?_, rfl, rfl, rfl, rfl, rfl, rfl, (by intro x g; cases g)⟩
  · show openIn w = openIn (setTs w l t x)
    rw [openIn_setTs, hf]
    exact (set_same (openIn w) l t).symm
  · rw [setTs_ts, if_pos ⟨rfl, rfl⟩, ht]
  · rw [setTs_ts, if_pos ⟨rfl, rfl⟩, hq]

theorem upd_close {w : W} (h : Tab w) (l t : Nat) {f : Nat} {m : Mode} (hf : (w.ts l t).fd = some (f, m)) (x : Ts) (hx : x.fd = none)
    (ht : x.ty = (w.ts l t).ty) (hq : x.q = (w.ts l t).q) : Upd l t w (closeFd (setTs w l t x) f) [.closed l t] := by
  refine ⟨tab_close h l t f m hf x hx, bal_closed hf hx, fun a b n => if_neg n, ?_, ?_, rfl, rfl, rfl, rfl, rfl, rfl, ?_⟩
  · show ((setTs w l t x).ts l t).ty = _; rw [setTs_ts, if_pos ⟨rfl, rfl⟩, ht]
  · show ((setTs w l t x).ts l t).q = _; rw [setTs_ts, if_pos ⟨rfl, rfl⟩, hq]
  · intro x g
    rw [List.mem_singleton] at g
    exact .inl ⟨l, t, g⟩

theorem upd_open {w : W} (h : Tab w) (l t : Nat) (m : Mode) (hf : (w.ts l t).fd = none) (hu : w.used l = true) (hl : l < 256) (ht : t ∈ slots) :
    Upd l t w { setTs w l t { w.ts l t with fd := some (w.next, m) } with next := w.next + 1, opened := w.opened ++ [w.next] } [.opened l t m] := by
  refine ⟨tab_open h l t m hf hu hl ht _ rfl, ⟨by simp [openIn, hf], ?_⟩, fun a b n => if_neg n, ?_, ?_, rfl, rfl, rfl, rfl, rfl, rfl, ?_⟩
  · show (openIn w).set l t (some m) = openIn (setTs w l t { w.ts l t with fd := some (w.next, m) })
    rw [openIn_setTs]; rfl
  · show ((setTs w l t _).ts l t).ty = _; rw [setTs_ts, if_pos ⟨rfl, rfl⟩]
  · show ((setTs w l t _).ts l t).q = _; rw [setTs_ts, if_pos ⟨rfl, rfl⟩]
  · intro x g
    rw [List.mem_singleton] at g
    exact .inr ⟨l, t, m, g⟩

theorem updNone_ok {w : W} (h : Tab w) (l t : Nat) :
    Upd l t w (updNone w l t).1 (updNone w l t).2 ∧ ((updNone w l t).1.ts l t).fd = none ∧ ((updNone w l t).1.ts l t).reg = false ∧
      ((updNone w l t).1.ts l t).lapd = false := by
  simp only [updNone]
  split
  · rename_i hf
    refine ⟨upd_keep h l t _ rfl rfl rfl, ?_, ?_, ?_⟩ <;> simp only [setTs_self]
    exact hf
  · rename_i f m hf
    refine ⟨upd_close h l t hf _ rfl rfl rfl, ?_, ?_, ?_⟩ <;> simp only [closeFd_ts, setTs_self]

theorem updClose_ok {w : W} (h : Tab w) (l t : Nat) (m info : Mode) :
    Upd l t w (updClose w l t m info).1 (updClose w l t m info).2 ∧ ((updClose w l t m info).1.ts l t).reg = false ∧
    ((updClose w l t m info).1.ts l t).fd = (if info = m then (w.ts l t).fd else none) := by
  simp only [updClose]
  split
  · rename_i hf
    refine ⟨upd_keep h l t _ rfl rfl rfl, ?_, ?_⟩ <;> simp only [setTs_self]
    rw [hf]; split <;> rfl
  · rename_i f m' hf
    split
    · rename_i e
      refine ⟨upd_keep h l t _ rfl rfl rfl, ?_, ?_⟩ <;> simp only [setTs_self]
    · rename_i e
      refine ⟨upd_close h l t hf _ rfl rfl rfl, ?_, ?_⟩ <;> simp only [closeFd_ts, setTs_self]

theorem updOpen_ok {w : W} (h : Tab w) (l t : Nat) (m : Mode) (ok : Bool) (hu : w.used l = true) (hl : l < 256) (ht : t ∈ slots) :
    Upd l t w (updOpen w l t m ok).1 (updOpen w l t m ok).2.1 ∧ ((updOpen w l t m ok).1.ts l t).reg = (w.ts l t).reg ∧
    ((updOpen w l t m ok).2.2 = false → ok = false ∧ ((updOpen w l t m ok).1.ts l t).fd = none) ∧
    ((updOpen w l t m ok).2.2 = true → ∃ f m', ((updOpen w l t m ok).1.ts l t).fd = some (f, m') ∧ ((w.ts l t).fd = none → m' = m) ∧
      ((w.ts l t).fd ≠ none → (w.ts l t).fd = some (f, m'))) := by
  simp only [updOpen]
  split
  · rename_i p hf
    refine ⟨Upd.refl h, rfl, (by intro e; cases e), fun _ => ⟨p.1, p.2, hf, ?_, fun _ => hf⟩⟩
    intro e; rw [hf] at e; cases e
  · rename_i hf
    split
    · refine ⟨upd_open h l t m hf hu hl ht, ?_, (by intro e; cases e), fun _ => ⟨w.next, m, ?_, fun _ => rfl, fun e => absurd hf e⟩⟩
      · show ((setTs w l t _).ts l t).reg = _; rw [setTs_self]
      · show ((setTs w l t _).ts l t).fd = _; rw [setTs_self]
    · rename_i e
      exact ⟨Upd.refl h, rfl, fun _ => ⟨by simpa using e, hf⟩, (by intro e; cases e)⟩

theorem updReg_ok {w : W} (h : Tab w) (l t : Nat) (ok : Bool) {f : Nat} {m : Mode} (hf : (w.ts l t).fd = some (f, m)) (hr : (w.ts l t).reg = false) :
    Upd l t w (updReg w l t ok).1 (updReg w l t ok).2.1 ∧
    ((updReg w l t ok).1.ts l t).reg = ((updReg w l t ok).1.ts l t).fd.isSome ∧
    (updReg w l t ok).2.2 = (if ok then .next else .regFailed) ∧
    (ok = true → ((updReg w l t ok).1.ts l t).fd = some (f, m)) ∧
    ((updReg w l t ok).1.ts l t).lapd = decide ((w.ts l t).ty = Ty.sign) := by
  simp only [updReg]
  split
  · rename_i e
    refine ⟨upd_keep h l t _ rfl rfl rfl, ?_, rfl, fun _ => ?_, ?_⟩ <;> simp only [setTs_self]
    · rw [hf]; rfl
    · exact hf
  · rename_i e
    split
    · rename_i g; rw [hf] at g; cases g
    · rename_i f' m' g
      refine ⟨upd_close h l t g _ rfl rfl rfl, ?_, rfl, (fun k => absurd k e), ?_⟩ <;> simp only [closeFd_ts, setTs_self]
      exact hr

theorem asConfigured_some {x : Ts} {m : Mode} {f : Nat} (hn : need x.ty = some m) (hf : x.fd = some (f, m)) (hr : x.reg = true) (hl : x.lapd = decide (x.ty = Ty.sign)) :
    AsConfigured x := by
  obtain ⟨ty, fd, reg, wr, lapd, q⟩ := x
  simp only at hf hr hl hn
  subst hf hr
  rw [hl]
  cases ty <;> simp [need] at hn <;> subst hn <;> exact ⟨⟨f, rfl⟩, rfl, rfl⟩

theorem need_none {ty : Ty} (h : need ty = none) : ty = .none := by cases ty <;> simp [need] at h ⊢

/-- one round of a line update, if the daemon reports the time slot -/
theorem updTs_ok {w : W} (h : Inv w) (l t num : Nat) (mode : Nat → Mode) (openOk regOk : Bool) (hu : w.used l = true) (hl : l < 256) (ht : t ∈ slots) (hn : 32 ≤ num) :
    Upd l t w (updTs w l t num mode openOk regOk).1 (updTs w l t num mode openOk regOk).2.1 ∧
    ((updTs w l t num mode openOk regOk).1.ts l t).reg = ((updTs w l t num mode openOk regOk).1.ts l t).fd.isSome ∧
    (openOk = true → regOk = true → (∀ f m, (w.ts l t).fd = some (f, m) → need (w.ts l t).ty = some (mode t) → m = mode t) →
      (updTs w l t num mode openOk regOk).2.2 = .next ∧ AsConfigured ((updTs w l t num mode openOk regOk).1.ts l t)) := by
  have hlt : t < 32 := by simp [slots] at ht; omega
  simp only [updTs]
  rw [if_neg (by omega)]
  split
  · rename_i hn
    obtain ⟨u, hf, hr, hla⟩ := updNone_ok h.toTab l t
    refine ⟨u, by rw [hf, hr]; rfl, fun _ _ _ => ⟨rfl, ?_⟩⟩
    have e : ((updNone w l t).1.ts l t).ty = .none := u.ty.trans (need_none hn)
    simp only [AsConfigured, e]
    exact ⟨hf, hr, hla⟩
  · rename_i m hn
    obtain ⟨u1, hr1, hf1⟩ := updClose_ok h.toTab l t m (mode t)
    have hu1 : (updClose w l t m (mode t)).1.used l = true := by rw [u1.used]; exact hu
    obtain ⟨u2, hr2, hno, hyes⟩ := updOpen_ok u1.tab l t m openOk hu1 hl ht
    generalize updClose w l t m (mode t) = c at *
    generalize updOpen c.1 l t m openOk = o at *
    cases ho : o.2.2 with
    | true =>
      obtain ⟨f, m', hf, e1, e2⟩ := hyes ho
      simp only [if_pos]
      have hr : (o.1.ts l t).reg = false := by rw [hr2, hr1]
      obtain ⟨u3, hr3, hres, hok, hla⟩ := updReg_ok u2.tab l t regOk hf hr
      generalize updReg o.1 l t regOk = g at *
      refine ⟨(u1.trans u2).trans u3, hr3, ?_⟩
      intro oo ro hm
      subst ro
      refine ⟨by rw [hres]; rfl, ?_⟩
      have hff := hok rfl
      have : m' = m := by
        by_cases hc : (c.1.ts l t).fd = none
        · exact e1 hc
        · have := e2 hc
          rw [hf1] at this
          by_cases hi : mode t = m
          · rw [if_pos hi] at this
            rw [← hi]; exact hm f m' this (by rw [hi]; exact hn)
          · rw [if_neg hi] at this; cases this
      subst this
      have ety : (g.1.ts l t).ty = (w.ts l t).ty := (u3.ty.trans u2.ty).trans u1.ty
      refine asConfigured_some (m := m') (f := f) (by rw [ety]; exact hn) hff (by rw [hr3, hff]; rfl) ?_
      rw [hla, u3.ty]
    | false =>
      obtain ⟨e1, e2⟩ := hno ho
      simp only [Bool.false_eq_true, if_false]
      refine ⟨u1.trans u2, ?_, ?_⟩
      · rw [hr2, hr1, e2]; rfl
      · intro k; rw [e1] at k; cases k

theorem Upd.inv {l t : Nat} {w w' : W} {a : List Act} (u : Upd l t w w' a) (h : Inv w) (hr : (w'.ts l t).reg = (w'.ts l t).fd.isSome) : Inv w' := by
  refine ⟨u.tab, ?_⟩
  intro x y
  by_cases c : x = l ∧ y = t
  · rw [c.1, c.2]; exact hr
  · rw [u.other x y c]; exact h.reg x y

theorem Upd.same {l t : Nat} {w w' : W} {a : List Act} (u : Upd l t w w' a) : Same w w' := by
  refine ⟨?_, ?_, u.used, u.fsm, Nat.le_of_eq u.upd.symm⟩
  · intro x y
    by_cases c : x = l ∧ y = t
    · rw [c.1, c.2]; exact u.ty
    · rw [u.other x y c]
  · intro x y
    by_cases c : x = l ∧ y = t
    · rw [c.1, c.2]; exact u.q
    · rw [u.other x y c]

theorem Upd.fsmOk {l t : Nat} {w w' : W} {a : List Act} (u : Upd l t w w' a) (h : Fsm w) (hc : w.conn = true) : Fsm w' :=
  ⟨by rw [u.cli, u.conn]; exact h.cli, by rw [u.timer, u.fsm, u.conn]; exact h.timer, by rw [u.conn, u.fsm]; exact h.fsm,
    by rw [u.conn, hc]; intro e; cases e⟩

/-- the actions of an update: opening and closing -/
def OnlyFds (a : List Act) : Prop := ∀ x ∈ a, (∃ l t, x = Act.closed l t) ∨ (∃ l t m, x = Act.opened l t m)

theorem OnlyFds.append {a b : List Act} (h : OnlyFds a) (g : OnlyFds b) : OnlyFds (a ++ b) := by
  intro x m; exact (List.mem_append.1 m).elim (h x) (g x)

theorem onlyFds_closed {a : List Act} (h : ∀ x ∈ a, ∃ l t, x = Act.closed l t) : OnlyFds a := fun x m => .inl (h x m)

/-- what a line update does -/
structure Upds (w w' : W) (a : List Act) : Prop where
  did : Did w w' a
  same : Same w w'
  acts : OnlyFds a

theorem Upds.trans {w1 w2 w3 : W} {a b : List Act} (h : Upds w1 w2 a) (g : Upds w2 w3 b) : Upds w1 w3 (a ++ b) :=
  ⟨h.did.trans g.did, h.same.trans g.same, h.acts.append g.acts⟩

theorem Upds.refl {w : W} (h : Inv w) (f : Fsm w) : Upds w w [] := ⟨⟨h, f, rfl⟩, Same.refl w, (by intro x g; cases g)⟩

theorem updTss_ok (E : Env) (n l num : Nat) (mode : Nat → Mode) (hl : l < 256) (hn : 32 ≤ num) : ∀ (ts : List Nat) {w : W}, Inv w → Fsm w → w.conn = true →
    w.used l = true → (∀ t ∈ ts, t ∈ slots) → ∃ w' a rc, updTss E n w l num mode ts = .ok (w', a, rc) ∧ Upds w w' a := by
  intro ts
  induction ts with
  | nil => intro w h f _ _ _; exact ⟨w, [], 0, rfl, Upds.refl h f⟩
  | cons t ts ih =>
    intro w h f hc hu hs
    obtain ⟨u, hr, _⟩ := updTs_ok h l t num mode (E.open_ n t) (E.reg n t) hu hl (hs t (List.mem_cons_self ..)) hn
    simp only [updTss]
    generalize updTs w l t num mode (E.open_ n t) (E.reg n t) = r at *
    obtain ⟨w1, a, res⟩ := r
    have hi := u.inv h hr
    have hf := u.fsmOk f hc
    have hU : Upds w w1 a := ⟨⟨hi, hf, u.bal⟩, u.same, u.acts⟩
    cases res with
    | next =>
      obtain ⟨w2, b, rc, e, U⟩ := ih hi hf (by rw [u.conn]; exact hc) (by rw [u.used]; exact hu) (fun t m => hs t (List.mem_cons_of_mem _ m))
      refine ⟨w2, a ++ b, rc, ?_, hU.trans U⟩
      simp only [e, bind, Except.bind]
    | openFailed =>
      obtain ⟨w2, b, e, d, s, _, _, _, _, ac⟩ := connLost_ok hi hf
      refine ⟨w2, a ++ b, -EIO, ?_, hU.trans ⟨d, s, onlyFds_closed ac⟩⟩
      simp only [e, bind, Except.bind]
    | regFailed => exact ⟨w1, a, -9, rfl, hU⟩

/-- the line is remembered -/
theorem use_inv {w : W} (h : Inv w) (l : Nat) : Inv { w with used := fun a => if a = l then true else w.used a } := by
  refine ⟨⟨?_, h.nodup, h.mem, h.inj, h.lt⟩, h.reg⟩
  intro a t g
  have := h.used a t g
  refine ⟨?_, this.2⟩
  show (if a = l then true else w.used a) = true
  split
  · rfl
  · exact this.1

theorem use_fsm {w : W} (h : Fsm w) (l : Nat) : Fsm { w with used := fun a => if a = l then true else w.used a } := ⟨h.cli, h.timer, h.fsm, h.disc⟩

/-- a change of which lines are used, and other bookkeeping -/
structure Upds' (w w' : W) (a : List Act) : Prop where
  did : Did w w' a
  ty : ∀ l t, (w'.ts l t).ty = (w.ts l t).ty
  q : ∀ l t, (w'.ts l t).q = (w.ts l t).q
  used : ∀ l, w.used l = true → w'.used l = true
  fsm : w'.fsm = w.fsm
  acts : OnlyFds a

theorem Upds'.trans {w1 w2 w3 : W} {a b : List Act} (h : Upds' w1 w2 a) (g : Upds' w2 w3 b) : Upds' w1 w3 (a ++ b) :=
  ⟨h.did.trans g.did, fun l t => (g.ty l t).trans (h.ty l t), fun l t => (g.q l t).trans (h.q l t), fun l u => g.used l (h.used l u), g.fsm.trans h.fsm,
    h.acts.append g.acts⟩

theorem Upds.weak {w w' : W} {a : List Act} (h : Upds w w' a) : Upds' w w' a :=
  ⟨h.did, h.same.ty, h.same.q, fun l u => by rw [h.same.used]; exact u, h.same.fsm, h.acts⟩

theorem updCore_ok {E : Env} (hE : Complete E) {w : W} (h : Inv w) (f : Fsm w) {l : Nat} (hl : l < 256) :
    ∃ w' a rc, updCore E w l = .ok (w', a, rc) ∧ Upds' w w' a ∧ w'.used l = true := by
  have hu : ({ w with used := fun a => if a = l then true else w.used a } : W).used l = true := if_pos rfl
  have ku : Upds' w { w with used := fun a => if a = l then true else w.used a } [] :=
    ⟨⟨use_inv h l, use_fsm f l, rfl⟩, fun _ _ => rfl, fun _ _ => rfl, fun a u => by show (if a = l then true else w.used a) = true; split; rfl; exact u, rfl,
      (by intro x g; cases g)⟩
  simp only [updCore]
  by_cases hc : w.conn = false
  · rw [if_pos hc]
    exact ⟨_, [], 0, rfl, ku, hu⟩
  · rw [if_neg hc]
    have hc : w.conn = true := by simpa using hc
    generalize hw1 : ({ w with used := fun a => if a = l then true else w.used a } : W) = w1 at *
    have hi1 : Inv { w1 with upd := w.upd + 1 } := ⟨⟨ku.did.inv.used, ku.did.inv.nodup, ku.did.inv.mem, ku.did.inv.inj, ku.did.inv.lt⟩, ku.did.inv.reg⟩
    have hf1 : Fsm { w1 with upd := w.upd + 1 } := ⟨ku.did.fsm.cli, ku.did.fsm.timer, ku.did.fsm.fsm, ku.did.fsm.disc⟩
    have hu1 : ({ w1 with upd := w.upd + 1 } : W).used l = true := hu
    have hc1 : ({ w1 with upd := w.upd + 1 } : W).conn = true := by rw [← hw1]; exact hc
    have k1 : Upds' w { w1 with upd := w.upd + 1 } [] := ⟨⟨hi1, hf1, ku.did.bal⟩, ku.ty, ku.q, ku.used, ku.fsm, ku.acts⟩
    have e1 : ({ w with used := fun a => if a = l then true else w.used a, upd := w.upd + 1 } : W) = { w1 with upd := w.upd + 1 } := by rw [← hw1]
    rw [e1]
    generalize ({ w1 with upd := w.upd + 1 } : W) = w2 at *
    split
    · rename_i hq
      obtain ⟨w3, b, e, d, s, _, _, _, _, ac⟩ := connLost_ok hi1 hf1
      refine ⟨w3, b, 0, ?_, k1.trans (Upds.weak ⟨d, s, onlyFds_closed ac⟩), ?_⟩
      · simp only [e, bind, Except.bind]
      · rw [s.used]; exact hu1
    · rename_i num mode hq
      obtain ⟨w3, b, rc, e, U⟩ := updTss_ok E w.upd l num mode hl (hE _ _ _ hq) slots hi1 hf1 hc1 hu1 (fun _ m => m)
      exact ⟨w3, b, rc, e, k1.trans U.weak, by rw [U.same.used]; exact hu1⟩

theorem updLines_ok {E : Env} (hE : Complete E) : ∀ (ls : List Nat) {w : W}, Inv w → Fsm w → (∀ l ∈ ls, l < 256) →
    ∃ w' a, updLines E w ls = .ok (w', a) ∧ Upds' w w' a := by
  intro ls
  induction ls with
  | nil => intro w h f _; exact ⟨w, [], rfl, (Upds.refl h f).weak⟩
  | cons l ls ih =>
    intro w h f hs
    simp only [updLines]
    split
    · obtain ⟨w1, a, rc, e, U, _⟩ := updCore_ok hE h f (hs l (List.mem_cons_self ..))
      obtain ⟨w2, b, e2, U2⟩ := ih U.did.inv U.did.fsm (fun l m => hs l (List.mem_cons_of_mem _ m))
      refine ⟨w2, a ++ b, ?_, U.trans U2⟩
      simp only [e, bind, Except.bind, e2]
    · exact ih h f (fun l m => hs l (List.mem_cons_of_mem _ m))

theorem connect_ok {E : Env} (hE : Complete E) {w : W} (h : Inv w) (hc : w.conn = false) (hcli : w.cli = false) (hf : w.fsm = true)
    (hd : ∀ l t, (w.ts l t).fd = none) (ok : Bool) :
    ∃ w' a, connect E w ok = .ok (w', a) ∧ Upds' w w' a := by
  simp only [connect, hc, hcli, Bool.false_eq_true, if_false, Bool.false_or]
  cases ok with
  | false =>
    refine ⟨_, [], rfl, ⟨⟨⟨⟨h.used, h.nodup, h.mem, h.inj, h.lt⟩, h.reg⟩, ⟨rfl, ?_, ?_, fun _ => hd⟩, rfl⟩, fun _ _ => rfl, fun _ _ => rfl, fun _ u => u, rfl, (by intro x g; cases g)⟩⟩
    · simp [hf, hc]
    · intro g; exact hf
  | true =>
    have hi : Inv { w with cli := true, conn := true, timer := false } := ⟨⟨h.used, h.nodup, h.mem, h.inj, h.lt⟩, h.reg⟩
    have hf1 : Fsm { w with cli := true, conn := true, timer := false } := ⟨rfl, by simp, fun _ => hf, (by intro e; cases e)⟩
    obtain ⟨w1, a, e, U⟩ := updLines_ok hE (List.range 256) hi hf1 (fun l m => List.mem_range.1 m)
    refine ⟨w1, a, by simp only [if_true]; exact e, ⟨⟨U.did.inv, U.did.fsm, U.did.bal⟩, U.ty, U.q, U.used, U.fsm, U.acts⟩⟩

theorem lineUpdate_ok {E : Env} (hE : Complete E) {w : W} (h : Inv w) (f : Fsm w) {l : Nat} (hl : l < 256) (ok : Bool) :
    ∃ w' a rc, lineUpdate E w l ok = .ok (w', a, rc) ∧ Did w w' a ∧ (∀ l t, (w'.ts l t).ty = (w.ts l t).ty) ∧ (∀ l t, (w'.ts l t).q = (w.ts l t).q) ∧
      OnlyFds a ∧ w'.fsm = true ∧ w'.used l = true := by
  simp only [lineUpdate, bind, Except.bind]
  by_cases hf : w.fsm = true
  · rw [if_pos hf]
    obtain ⟨w1, a, rc, e, U, u⟩ := updCore_ok hE (use_inv h l) (use_fsm f l) hl
    refine ⟨w1, a, rc, e, ⟨U.did.inv, U.did.fsm, U.did.bal⟩, U.ty, U.q, U.acts, U.fsm.trans hf, u⟩
  · rw [if_neg hf]
    have hc : w.conn = false := by
      cases hc : w.conn with
      | false => rfl
      | true => exact absurd (f.fsm hc) hf
    have hi := use_inv h l
    have hi2 : Inv { w with used := fun a => if a = l then true else w.used a, fsm := true } := ⟨⟨hi.used, hi.nodup, hi.mem, hi.inj, hi.lt⟩, hi.reg⟩
    obtain ⟨w1, a, e, U⟩ := connect_ok hE hi2 hc (f.cli.trans hc) rfl (f.disc hc) ok
    obtain ⟨w2, b, rc, e2, U2, u⟩ := updCore_ok hE U.did.inv U.did.fsm hl
    have T := U.trans U2
    refine ⟨w2, a ++ b, rc, by simp only [e, e2], ⟨T.did.inv, T.did.fsm, T.did.bal⟩, T.ty, T.q, T.acts, T.fsm, u⟩

/-- a change of a time slot that concerns neither its descriptor nor its registration -/
theorem did_keep {w : W} (h : Inv w) (f : Fsm w) (l t : Nat) (x : Ts) (hf : x.fd = (w.ts l t).fd) (hr : x.reg = (w.ts l t).reg) :
    Did w (setTs w l t x) [] := by
  have e : ∀ a b, ((setTs w l t x).ts a b).fd = (w.ts a b).fd := by
    intro a b
    rw [setTs_ts]
    split
    · rename_i g; rw [g.1, g.2, hf]
    · rfl
  refine ⟨⟨tab_keep h.toTab l t x hf, ?_⟩, ⟨f.cli, f.timer, f.fsm, ?_⟩, ?_⟩
  · intro a b
    rw [setTs_ts]
    split
    · rename_i g; rw [hr, hf]; exact h.reg l t
    · exact h.reg a b
  · intro c a b; rw [e]; exact f.disc c a b
  · show openIn w = openIn (setTs w l t x)
    rw [openIn_setTs, hf]; exact (set_same (openIn w) l t).symm

theorem did_refl {w : W} (h : Inv w) (f : Fsm w) : Did w w [] := ⟨h, f, rfl⟩

theorem written_append (l t : Nat) : ∀ (a b : List Act), written l t (a ++ b) = written l t a ++ written l t b := by
  intro a
  induction a with
  | nil => intro b; rfl
  | cons x a ih =>
    intro b
    cases x <;> simp only [List.cons_append, written, ih]
    split <;> simp

theorem written_onlyFds {a : List Act} (h : OnlyFds a) (l t : Nat) : written l t a = [] := by
  induction a with
  | nil => rfl
  | cons x a ih =>
    have ih := ih (fun y g => h y (List.mem_cons_of_mem _ g))
    rcases h x (List.mem_cons_self ..) with ⟨l', t', rfl⟩ | ⟨l', t', m, rfl⟩ <;> exact ih

/-- a step other than sending and configuring: messages leave the queues only by being written, in their order -/
structure Ev' (w w' : W) (a : List Act) : Prop where
  did : Did w w' a
  ty : ∀ l t, (w'.ts l t).ty = (w.ts l t).ty
  q : ∀ l t, (w.ts l t).ty = .raw ∨ (w.ts l t).ty = .hdlc → (w.ts l t).q = written l t a ++ (w'.ts l t).q

theorem Ev'.trans {w1 w2 w3 : W} {a b : List Act} (h : Ev' w1 w2 a) (g : Ev' w2 w3 b) : Ev' w1 w3 (a ++ b) := by
  refine ⟨h.did.trans g.did, fun l t => (g.ty l t).trans (h.ty l t), ?_⟩
  intro l t e
  rw [h.q l t e, g.q l t (by rw [h.ty]; exact e), written_append, List.append_assoc]

theorem Ev'.refl {w : W} (h : Inv w) (f : Fsm w) : Ev' w w [] := ⟨did_refl h f, fun _ _ => rfl, fun _ _ _ => rfl⟩

theorem ev_connLost {w : W} (h : Inv w) (f : Fsm w) : ∃ w' a, connLost w = .ok (w', a) ∧ Ev' w w' a := by
  obtain ⟨w1, a, e, d, s, _, _, _, _, ac⟩ := connLost_ok h f
  refine ⟨w1, a, e, d, s.ty, ?_⟩
  intro l t _
  rw [written_closed ac, s.q]; rfl

/-- actions that are neither opening nor closing do not count for the balance -/
theorem bal_cons {s s' : Opened} {a : List Act} (h : Balanced s a s') :
    (∀ l t d, Balanced s (.rx l t d :: a) s') ∧ (∀ l t d n, Balanced s (.write l t d n :: a) s') ∧ (∀ l t, Balanced s (.leak l t :: a) s') ∧
    (∀ l t d n, Balanced s (.lapd l t d n :: a) s') ∧ (∀ l t d, Balanced s (.free l t d :: a) s') :=
  ⟨fun _ _ _ => h, fun _ _ _ _ => h, fun _ _ => h, fun _ _ _ _ => h, fun _ _ _ => h⟩

theorem Ev'.rx {w w' : W} {a : List Act} (h : Ev' w w' a) (l t : Nat) (d : List Byte) : Ev' w w' (.rx l t d :: a) :=
  ⟨⟨h.did.inv, h.did.fsm, h.did.bal⟩, h.ty, h.q⟩
theorem Ev'.leak {w w' : W} {a : List Act} (h : Ev' w w' a) (l t : Nat) : Ev' w w' (.leak l t :: a) :=
  ⟨⟨h.did.inv, h.did.fsm, h.did.bal⟩, h.ty, h.q⟩
theorem Ev'.lapd {w w' : W} {a : List Act} (h : Ev' w w' a) (l t : Nat) (d : List Byte) (n : Option Int) : Ev' w w' (.lapd l t d n :: a) :=
  ⟨⟨h.did.inv, h.did.fsm, h.did.bal⟩, h.ty, h.q⟩
theorem Ev'.free {w w' : W} {a : List Act} (h : Ev' w w' a) (l t : Nat) (d : List Byte) : Ev' w w' (a ++ [.free l t d]) :=
  ⟨⟨h.did.inv, h.did.fsm, bal_append h.did.bal rfl⟩, h.ty, fun l' t' e => by rw [written_append]; show _ = (_ ++ []) ++ _; rw [List.append_nil]; exact h.q l' t' e⟩

theorem signRead_ok {w : W} (h : Inv w) (f : Fsm w) (l t : Nat) (r : Option (List Byte)) : ∃ w' a, signRead w l t r = .ok (w', a) ∧ Ev' w w' a := by
  obtain ⟨w1, a, e, v⟩ := ev_connLost h f
  simp only [signRead]
  split
  · exact ⟨w, _, rfl, (Ev'.refl h f).rx _ _ _⟩
  · exact ⟨w1, _, by simp only [e, bind, Except.bind], v.leak l t⟩

theorem hdlcRead_ok {w : W} (h : Inv w) (f : Fsm w) (l t : Nat) (r : Option (List Byte)) : ∃ w' a, hdlcRead w l t r = .ok (w', a) ∧ Ev' w w' a := by
  obtain ⟨w1, a, e, v⟩ := ev_connLost h f
  simp only [hdlcRead]
  split
  · exact ⟨w, _, rfl, (Ev'.refl h f).rx _ _ _⟩
  · exact ⟨w1, _, e, v⟩

theorem rawRead_ok {w : W} (h : Inv w) (f : Fsm w) (l t : Nat) (r : Option (List Byte)) : ∃ w' a, rawRead w l t r = .ok (w', a) ∧ Ev' w w' a := by
  obtain ⟨w1, a, e, v⟩ := ev_connLost h f
  simp only [rawRead]
  split
  · exact ⟨w1, _, e, v⟩
  · split
    · exact ⟨w, _, rfl, (Ev'.refl h f).rx _ _ _⟩
    · split
      · exact ⟨w1, _, e, v⟩
      · exact ⟨w, _, rfl, Ev'.refl h f⟩

theorem ev_trauWrite {w w' : W} {a : List Act} (v : Ev' w w' a) (l t : Nat) (m : List Byte) (n : Int) (ht : (w.ts l t).ty = .trau) :
    Ev' w w' (.write l t m n :: a) := by
  refine ⟨⟨v.did.inv, v.did.fsm, v.did.bal⟩, v.ty, ?_⟩
  intro l' t' e
  have : ¬ (l = l' ∧ t = t') := by rintro ⟨rfl, rfl⟩; rw [ht] at e; rcases e with e | e <;> cases e
  simp only [written, if_neg this]
  exact v.q l' t' e

theorem trauRead_ok {w : W} (h : Inv w) (f : Fsm w) (l t : Nat) (r : Option (List Byte)) (m : List Byte) (n : Int) (ht : (w.ts l t).ty = .trau) :
    ∃ w' a, trauRead w l t r m n = .ok (w', a) ∧ Ev' w w' a := by
  obtain ⟨w1, a, e, v⟩ := ev_connLost h f
  simp only [trauRead]
  split
  · exact ⟨w1, _, by simp only [e, bind, Except.bind], v.leak l t⟩
  · split
    · by_cases hn : n ≤ 0
      · simp only [trauWrite, if_pos hn, e, bind, Except.bind]
        exact ⟨w1, _, rfl, (ev_trauWrite v l t _ n ht).rx _ _ _⟩
      · simp only [trauWrite, if_neg hn, bind, Except.bind]
        exact ⟨w, _, rfl, (ev_trauWrite (Ev'.refl h f) l t _ n ht).rx _ _ _⟩
    · split
      · exact ⟨w1, _, by simp only [e, bind, Except.bind], v.leak l t⟩
      · exact ⟨w, _, rfl, (Ev'.refl h f).leak l t⟩

/-- write events disabled -/
theorem ev_wr {w : W} (h : Inv w) (f : Fsm w) (l t : Nat) (b : Bool) : Ev' w (setTs w l t { w.ts l t with wr := b }) [] := by
  refine ⟨did_keep h f l t _ rfl rfl, ?_, ?_⟩
  · intro a c; rw [setTs_ts]; split
    · rename_i g; rw [g.1, g.2]
    · rfl
  · intro a c _; rw [setTs_ts]; split
    · rename_i g; rw [g.1, g.2]; rfl
    · rfl

/-- a message is taken from the queue and written -/
theorem ev_pop {w w' : W} {a : List Act} {l t : Nat} {m : List Byte} {q : List (List Byte)} {n : Int} (h : Inv w) (f : Fsm w)
    (hq : (w.ts l t).q = m :: q) (v : Ev' (setTs w l t { w.ts l t with q := q }) w' a) : Ev' w w' (.write l t m n :: a ++ [.free l t m]) := by
  have k := did_keep h f l t { w.ts l t with q := q } rfl rfl
  have d := k.trans v.did
  have g : Ev' w w' (.write l t m n :: a) := by
    refine ⟨⟨d.inv, d.fsm, d.bal⟩, ?_, ?_⟩
    · intro x y; rw [v.ty, setTs_ts]; split
      · rename_i g; rw [g.1, g.2]
      · rfl
    · intro x y e
      have := v.q x y
      rw [setTs_ts] at this
      by_cases c : x = l ∧ y = t
      · obtain ⟨rfl, rfl⟩ := c
        rw [if_pos ⟨rfl, rfl⟩] at this
        simp only [written, and_self, if_true]
        rw [hq, List.cons_append, ← this e]
      · rw [if_neg c] at this
        simp only [written, if_neg (show ¬ (l = x ∧ t = y) from fun g => c ⟨g.1.symm, g.2.symm⟩)]
        exact this e
  exact g.free l t m

theorem rawWrite_ok {w : W} (h : Inv w) (f : Fsm w) (l t : Nat) (n : Int) : ∃ w' a, rawWrite w l t n = .ok (w', a) ∧ Ev' w w' a := by
  simp only [rawWrite]
  split
  · exact ⟨_, _, rfl, ev_wr h f l t false⟩
  · rename_i m q hq
    have k := did_keep h f l t { w.ts l t with q := q } rfl rfl
    split
    · obtain ⟨w1, a, e, v⟩ := ev_connLost k.inv k.fsm
      exact ⟨w1, .write l t m n :: a ++ [.free l t m], by simp only [e, bind, Except.bind], ev_pop (n := n) h f hq v⟩
    · exact ⟨_, _, rfl, ev_pop (n := n) h f hq (Ev'.refl k.inv k.fsm)⟩

theorem hdlcWrite_ok {w : W} (h : Inv w) (f : Fsm w) (l t : Nat) (n : Int) : ∃ w' a, hdlcWrite w l t n = .ok (w', a) ∧ Ev' w w' a := by
  simp only [hdlcWrite]
  split
  · exact ⟨_, _, rfl, ev_wr h f l t false⟩
  · rename_i m q hq
    have k := did_keep h f l t { w.ts l t with q := q } rfl rfl
    split
    · obtain ⟨w1, a, e, v⟩ := ev_connLost k.inv k.fsm
      exact ⟨w1, .write l t m n :: a ++ [.free l t m], by simp only [e, bind, Except.bind], ev_pop (n := n) h f hq v⟩
    · exact ⟨_, _, rfl, ev_pop (n := n) h f hq (Ev'.refl k.inv k.fsm)⟩

theorem evRead_ok {w : W} (h : Inv w) (f : Fsm w) (l t : Nat) (e : Ev) : ∃ w' a, evRead w l t e = .ok (w', a) ∧ Ev' w w' a := by
  simp only [evRead]
  cases ht : (w.ts l t).ty with
  | sign => exact signRead_ok h f l t _
  | trau => exact trauRead_ok h f l t _ _ _ ht
  | raw => exact rawRead_ok h f l t _
  | hdlc => exact hdlcRead_ok h f l t _
  | i460 => exact ⟨_, _, rfl, Ev'.refl h f⟩
  | none => exact ⟨_, _, rfl, Ev'.refl h f⟩

theorem evWrite_ok {w : W} (h : Inv w) (f : Fsm w) (l t : Nat) (e : Ev) : ∃ w' a, evWrite w l t e = .ok (w', a) ∧ Ev' w w' a := by
  simp only [evWrite]
  cases ht : (w.ts l t).ty with
  | sign => exact ⟨_, _, rfl, ev_wr h f l t false⟩
  | raw => exact rawWrite_ok h f l t _
  | hdlc => exact hdlcWrite_ok h f l t _
  | trau => exact ⟨_, _, rfl, Ev'.refl h f⟩
  | i460 => exact ⟨_, _, rfl, Ev'.refl h f⟩
  | none => exact ⟨_, _, rfl, Ev'.refl h f⟩

theorem opt_ok {w : W} (h : Inv w) (f : Fsm w) (b : Bool) (k : W → M (W × List Act)) (hk : ∃ w' a, k w = .ok (w', a) ∧ Ev' w w' a) :
    ∃ w' a, opt b w k = .ok (w', a) ∧ Ev' w w' a := by
  cases b with
  | false => exact ⟨_, _, rfl, Ev'.refl h f⟩
  | true => exact hk

theorem fdCb_ok {w : W} (h : Inv w) (f : Fsm w) (l t : Nat) (e : Ev) : ∃ w' a, fdCb w l t e = .ok (w', a) ∧ Ev' w w' a := by
  simp only [fdCb]
  split
  · obtain ⟨w1, a, e1, v1⟩ := opt_ok h f e.rd (fun w => evRead w l t e) (evRead_ok h f l t e)
    obtain ⟨w2, b, e2, v2⟩ := opt_ok v1.did.inv v1.did.fsm e.wr (fun w => evWrite w l t e) (evWrite_ok v1.did.inv v1.did.fsm l t e)
    exact ⟨w2, a ++ b, by simp only [e1, e2, bind, Except.bind], v1.trans v2⟩
  · exact ⟨_, _, rfl, Ev'.refl h f⟩

theorem lapdTx_ok {w : W} (h : Inv w) (f : Fsm w) (l t : Nat) (d : List Byte) (n : Int) : ∃ w' a, lapdTx w l t d n = .ok (w', a) ∧ Ev' w w' a := by
  simp only [lapdTx]
  split
  · exact ⟨_, _, rfl, (Ev'.refl h f).lapd _ _ _ _⟩
  · split
    · obtain ⟨w1, a, e, v⟩ := ev_connLost h f
      exact ⟨w1, .lapd l t d (some n) :: a, by simp only [e, bind, Except.bind], v.lapd _ _ _ _⟩
    · exact ⟨_, _, rfl, (Ev'.refl h f).lapd _ _ _ _⟩

theorem wantWrite_ok {w : W} (h : Inv w) (f : Fsm w) (l t : Nat) : Ev' w (wantWrite w l t) [] := by
  simp only [wantWrite]
  split
  · exact Ev'.refl h f
  · split
    · exact Ev'.refl h f
    · exact ev_wr h f l t true

theorem ev_of_upds {w w' : W} {a : List Act} (d : Did w w' a) (ty : ∀ l t, (w'.ts l t).ty = (w.ts l t).ty) (q : ∀ l t, (w'.ts l t).q = (w.ts l t).q)
    (ac : OnlyFds a) : Ev' w w' a :=
  ⟨d, ty, fun l t _ => by rw [written_onlyFds ac, q]; rfl⟩

/-- all operations but configuring and sending -/
theorem step_ev {E : Env} (hE : Complete E) {w : W} (h : Inv w) (f : Fsm w) {op : Op} (hv : op.valid = true) (hc : ∀ l t ty, op ≠ .config l t ty)
    (hs : ∀ l t m, op ≠ .send l t m) : ∃ w' a, step E w op = .ok (w', a) ∧ Ev' w w' a := by
  cases op with
  | config l t ty => exact absurd rfl (hc l t ty)
  | send l t m => exact absurd rfl (hs l t m)
  | update l ok =>
    obtain ⟨w1, a, rc, e, d, ty, q, ac, _⟩ := lineUpdate_ok hE h f (by simpa [Op.valid] using hv) ok
    exact ⟨w1, a, by simp only [step, e, Except.map], ev_of_upds d ty q ac⟩
  | timer ok =>
    simp only [step]
    by_cases ht : w.timer = true
    · rw [if_pos ht]
      have hh : (w.fsm && !w.conn) = true := by rw [← f.timer]; exact ht
      simp only [Bool.and_eq_true, Bool.not_eq_true'] at hh
      have hi : Inv { w with timer := false } := ⟨⟨h.used, h.nodup, h.mem, h.inj, h.lt⟩, h.reg⟩
      obtain ⟨w1, a, e, U⟩ := connect_ok hE hi hh.2 (f.cli.trans hh.2) hh.1 (f.disc hh.2) ok
      exact ⟨w1, a, e, ev_of_upds ⟨U.did.inv, U.did.fsm, U.did.bal⟩ U.ty U.q U.acts⟩
    · rw [if_neg ht]; exact ⟨_, _, rfl, Ev'.refl h f⟩
  | event l t e =>
    simp only [step]
    split
    · exact fdCb_ok h f l t _
    · exact ⟨_, _, rfl, Ev'.refl h f⟩
  | want l t => exact ⟨_, _, rfl, wantWrite_ok h f l t⟩
  | lapdTx l t d n =>
    simp only [step]
    split
    · exact lapdTx_ok h f l t d n
    · exact ⟨_, _, rfl, Ev'.refl h f⟩

/-- sending -/
theorem send_ok {w : W} (h : Inv w) (f : Fsm w) (l t : Nat) (m : List Byte) {w' : W} {a : List Act} (hs : send w l t m = .ok (w', a)) :
    a = [] ∧ Did w w' [] ∧ (∀ x y, (w'.ts x y).ty = (w.ts x y).ty) ∧ ∀ x y, (w'.ts x y).q = (w.ts x y).q ++ sent x y [.send l t m] := by
  simp only [send] at hs
  split at hs
  · injection hs with hs
    injection hs with e1 e2
    subst e1 e2
    have v := wantWrite_ok h f l t
    have hq : ∀ x y, ((wantWrite w l t).ts x y).q = (w.ts x y).q := by
      intro x y
      simp only [wantWrite]
      split
      · rfl
      · split
        · rfl
        · rw [setTs_ts]; split
          · rename_i g; rw [g.1, g.2]
          · rfl
    have k := did_keep v.did.inv v.did.fsm l t { (wantWrite w l t).ts l t with q := ((wantWrite w l t).ts l t).q ++ [m] } rfl rfl
    refine ⟨rfl, v.did.trans k, ?_, ?_⟩
    · intro x y; rw [← v.ty x y, setTs_ts]; split
      · rename_i g; rw [g.1, g.2]
      · rfl
    · intro x y
      rw [setTs_ts]
      simp only [sent]
      by_cases c : x = l ∧ y = t
      · obtain ⟨rfl, rfl⟩ := c
        simp [hq]
      · rw [if_neg c, if_neg (fun g => c ⟨g.1.symm, g.2.symm⟩), hq, List.append_nil]
  · cases hs

theorem onlyFree_bal (l t : Nat) : ∀ (q : List (List Byte)) (s : Opened), Balanced s (q.map (.free l t)) s := by
  intro q
  induction q with
  | nil => intro s; rfl
  | cons m q ih => intro s; exact ih s

theorem onlyFree_written (l t x y : Nat) : ∀ (q : List (List Byte)), written x y (q.map (.free l t)) = [] := by
  intro q
  induction q with
  | nil => rfl
  | cons m q ih => exact ih

/-- configuring -/
theorem config_ok {w : W} (h : Inv w) (f : Fsm w) (l t : Nat) (ty : Ty) : Did w (config w l t ty).1 (config w l t ty).2 ∧
    (∀ x y, written x y (config w l t ty).2 = []) ∧ (∀ x y, ¬ (x = l ∧ y = t) → (config w l t ty).1.ts x y = w.ts x y) := by
  simp only [config]
  split
  · exact ⟨did_refl h f, fun _ _ => rfl, fun _ _ _ => rfl⟩
  · have k := did_keep h f l t { w.ts l t with ty := ty, q := [] } rfl rfl
    refine ⟨⟨k.inv, k.fsm, ?_⟩, fun x y => onlyFree_written l t x y _, fun x y n => if_neg n⟩
    have := bal_append k.bal (onlyFree_bal l t (w.ts l t).q _)
    exact this

theorem step_did {E : Env} (hE : Complete E) {w : W} (h : Inv w) (f : Fsm w) {op : Op} (hv : op.valid = true) :
    (∃ w' a, step E w op = .ok (w', a) ∧ Did w w' a) ∨ (∃ l t m, op = .send l t m ∧ step E w op = .error .assert) := by
  cases op with
  | config l t ty => exact .inl ⟨_, _, rfl, (config_ok h f l t ty).1⟩
  | send l t m =>
    cases hs : send w l t m with
    | ok r =>
      obtain ⟨w', a⟩ := r
      obtain ⟨rfl, d, _⟩ := send_ok h f l t m hs
      exact .inl ⟨w', [], hs, d⟩
    | error e =>
      refine .inr ⟨l, t, m, rfl, ?_⟩
      simp only [step]
      simp only [send] at hs ⊢
      split at hs
      · cases hs
      · rename_i c; rw [if_neg c]
  | update l ok => obtain ⟨w', a, e, v⟩ := step_ev hE h f hv (by intros; intro g; cases g) (by intros; intro g; cases g); exact .inl ⟨w', a, e, v.did⟩
  | timer ok => obtain ⟨w', a, e, v⟩ := step_ev hE h f hv (by intros; intro g; cases g) (by intros; intro g; cases g); exact .inl ⟨w', a, e, v.did⟩
  | event l t e => obtain ⟨w', a, e, v⟩ := step_ev hE h f hv (by intros; intro g; cases g) (by intros; intro g; cases g); exact .inl ⟨w', a, e, v.did⟩
  | want l t => obtain ⟨w', a, e, v⟩ := step_ev hE h f hv (by intros; intro g; cases g) (by intros; intro g; cases g); exact .inl ⟨w', a, e, v.did⟩
  | lapdTx l t d n => obtain ⟨w', a, e, v⟩ := step_ev hE h f hv (by intros; intro g; cases g) (by intros; intro g; cases g); exact .inl ⟨w', a, e, v.did⟩

theorem init_inv : Inv init ∧ Fsm init :=
  ⟨⟨⟨(by intro l t g; exact absurd rfl g), List.nodup_nil, (by intro f; simp [init, noTs]), (by intro l t m l' t' m' f g; cases g), (by intro f g; cases g)⟩,
    fun _ _ => rfl⟩, ⟨rfl, rfl, (by intro e; cases e), fun _ _ _ => rfl⟩⟩

theorem run_did {E : Env} (hE : Complete E) : ∀ (ops : List Op) {w : W}, Inv w → Fsm w → (∀ op ∈ ops, op.valid = true) →
    (∃ w' a, run E w ops = .ok (w', a) ∧ Did w w' a) ∨ run E w ops = .error .assert := by
  intro ops
  induction ops with
  | nil => intro w h f _; exact .inl ⟨w, [], rfl, did_refl h f⟩
  | cons op ops ih =>
    intro w h f hv
    rcases step_did hE h f (hv op (List.mem_cons_self ..)) with ⟨w1, a, e, d⟩ | ⟨_, _, _, _, e⟩
    · rcases ih d.inv d.fsm (fun o m => hv o (List.mem_cons_of_mem _ m)) with ⟨w2, b, e2, d2⟩ | e2
      · exact .inl ⟨w2, a ++ b, by simp only [run, e, e2, bind, Except.bind], d.trans d2⟩
      · exact .inr (by simp only [run, e, e2, bind, Except.bind])
    · exact .inr (by simp only [run, e, bind, Except.bind])

/-! ### A daemon that answers all requests -/

/-- the daemon does not claim that a time slot is open in the mode that is needed if it is open in another one -/
def Truthful (w : W) (l : Nat) (mode : Nat → Mode) : Prop :=
  ∀ t ∈ slots, ∀ f m, (w.ts l t).fd = some (f, m) → need (w.ts l t).ty = some (mode t) → m = mode t

/-- a line update that succeeded -/
structure Good (w w' : W) (a : List Act) (l : Nat) (ts : List Nat) : Prop where
  upds : Upds' w w' a
  conn : w'.conn = true
  cfg : ∀ t ∈ ts, AsConfigured (w'.ts l t)
  other : ∀ l' t', (l' = l → t' ∉ ts) → w'.ts l' t' = w.ts l' t'

theorem updTss_works (E : Env) (n l num : Nat) (mode : Nat → Mode) (hl : l < 256) (hn : 32 ≤ num) (ho : ∀ t, E.open_ n t = true ∧ E.reg n t = true) :
    ∀ (ts : List Nat) {w : W}, Inv w → Fsm w → w.conn = true → w.used l = true → (∀ t ∈ ts, t ∈ slots) → ts.Nodup →
    (∀ t ∈ ts, ∀ f m, (w.ts l t).fd = some (f, m) → need (w.ts l t).ty = some (mode t) → m = mode t) →
    ∃ w' a, updTss E n w l num mode ts = .ok (w', a, 0) ∧ Good w w' a l ts ∧ w'.used = w.used := by
  intro ts
  induction ts with
  | nil => intro w h f hc _ _ _ _; exact ⟨w, [], rfl, ⟨(Upds.refl h f).weak, hc, (by intro t g; cases g), fun _ _ _ => rfl⟩, rfl⟩
  | cons t ts ih =>
    intro w h f hc hu hs hd hm
    obtain ⟨u, hr, hg⟩ := updTs_ok h l t num mode (E.open_ n t) (E.reg n t) hu hl (hs t (List.mem_cons_self ..)) hn
    obtain ⟨hg1, hg2⟩ := hg (ho t).1 (ho t).2 (hm t (List.mem_cons_self ..))
    simp only [updTss]
    generalize updTs w l t num mode (E.open_ n t) (E.reg n t) = r at *
    obtain ⟨w1, a, res⟩ := r
    have hg1 : res = .next := hg1
    subst hg1
    have hi := u.inv h hr
    have hf := u.fsmOk f hc
    have hU : Upds w w1 a := ⟨⟨hi, hf, u.bal⟩, u.same, u.acts⟩
    have hd' := List.nodup_cons.1 hd
    obtain ⟨w2, b, e, G, hus⟩ := ih hi hf (by rw [u.conn]; exact hc) (by rw [u.used]; exact hu) (fun t m => hs t (List.mem_cons_of_mem _ m)) hd'.2 (by
      intro s ms f m
      have hne : s ≠ t := by rintro rfl; exact hd'.1 ms
      rw [u.other l s (fun g => hne g.2)]
      exact hm s (List.mem_cons_of_mem _ ms) f m)
    refine ⟨w2, a ++ b, ?_, ⟨hU.weak.trans G.upds, G.conn, ?_, ?_⟩, hus.trans u.used⟩
    · simp only [e, bind, Except.bind]
    · intro s ms
      cases ms with
      | head => rw [G.other l t (fun _ => hd'.1)]; exact hg2
      | tail _ ms => exact G.cfg s ms
    · intro l' t' hne
      rw [G.other l' t' (fun e m => hne e (List.mem_cons_of_mem _ m))]
      exact u.other l' t' (fun g => hne g.1 (by rw [g.2]; exact List.mem_cons_self ..))

theorem updCore_works {E : Env} {w : W} (h : Inv w) (f : Fsm w) {l : Nat} (hl : l < 256) (hc : w.conn = true)
    {num : Nat} {mode : Nat → Mode} (hq : E.query w.upd = some (num, mode)) (hn : 32 ≤ num) (ho : ∀ t, E.open_ w.upd t = true ∧ E.reg w.upd t = true)
    (ht : Truthful w l mode) :
    ∃ w' a, updCore E w l = .ok (w', a, 0) ∧ Good w w' a l slots ∧ (w.used l = true → w'.used = w.used) := by
  have hu : ({ w with used := fun a => if a = l then true else w.used a } : W).used l = true := if_pos rfl
  have ku : Upds' w { w with used := fun a => if a = l then true else w.used a } [] :=
    ⟨⟨use_inv h l, use_fsm f l, rfl⟩, fun _ _ => rfl, fun _ _ => rfl, fun a u => by show (if a = l then true else w.used a) = true; split; rfl; exact u, rfl,
      (by intro x g; cases g)⟩
  have hus : w.used l = true → (fun a => if a = l then true else w.used a) = w.used := by
    intro g; funext a; split
    · rename_i e; rw [e, g]
    · rfl
  simp only [updCore]
  rw [if_neg (by rw [hc]; intro e; cases e)]
  simp only [hq]
  have hi1 : Inv { w with used := fun a => if a = l then true else w.used a, upd := w.upd + 1 } :=
    ⟨⟨ku.did.inv.used, ku.did.inv.nodup, ku.did.inv.mem, ku.did.inv.inj, ku.did.inv.lt⟩, ku.did.inv.reg⟩
  have hf1 : Fsm { w with used := fun a => if a = l then true else w.used a, upd := w.upd + 1 } := ⟨ku.did.fsm.cli, ku.did.fsm.timer, ku.did.fsm.fsm, ku.did.fsm.disc⟩
  have k1 : Upds' w { w with used := fun a => if a = l then true else w.used a, upd := w.upd + 1 } [] := ⟨⟨hi1, hf1, ku.did.bal⟩, ku.ty, ku.q, ku.used, ku.fsm, ku.acts⟩
  obtain ⟨w3, b, e, G, u3⟩ := updTss_works E w.upd l num mode hl hn ho slots hi1 hf1 hc hu (fun _ m => m) (List.nodup_range' ..) ht
  exact ⟨w3, b, e, ⟨k1.trans G.upds, G.conn, G.cfg, G.other⟩, fun g => u3.trans (hus g)⟩

theorem updLines_works {E : Env} (hE : Works E) : ∀ (ls : List Nat) {w : W}, Inv w → Fsm w → w.conn = true → (∀ l ∈ ls, l < 256) → ls.Nodup →
    (∀ l ∈ ls, ∀ t ∈ slots, (w.ts l t).fd = none) →
    ∃ w' a, updLines E w ls = .ok (w', a) ∧ Upds' w w' a ∧ w'.conn = true ∧ w'.used = w.used ∧ (∀ l ∈ ls, w.used l = true → ∀ t ∈ slots, AsConfigured (w'.ts l t)) ∧
      (∀ l t, l ∉ ls → w'.ts l t = w.ts l t) := by
  intro ls
  induction ls with
  | nil => intro w h f hc _ _ _; exact ⟨w, [], rfl, (Upds.refl h f).weak, hc, rfl, (by intro l g; cases g), fun _ _ _ => rfl⟩
  | cons l ls ih =>
    intro w h f hc hs hd hf
    have hd' := List.nodup_cons.1 hd
    simp only [updLines]
    split
    · rename_i hu
      obtain ⟨⟨num, mode, hq, hn⟩, ho⟩ := hE w.upd
      obtain ⟨w1, a, e, G, u1⟩ := updCore_works h f (hs l (List.mem_cons_self ..)) hc hq hn ho (by
        intro t ht f' m g; rw [hf l (List.mem_cons_self ..) t ht] at g; cases g)
      have u1 := u1 hu
      obtain ⟨w2, b, e2, U2, c2, u2, g2, o2⟩ := ih G.upds.did.inv G.upds.did.fsm G.conn (fun l m => hs l (List.mem_cons_of_mem _ m)) hd'.2 (by
        intro l' m t ht
        rw [G.other l' t (by rintro rfl; exact absurd m hd'.1)]
        exact hf l' (List.mem_cons_of_mem _ m) t ht)
      refine ⟨w2, a ++ b, ?_, G.upds.trans U2, c2, u2.trans u1, ?_, ?_⟩
      · simp only [e, bind, Except.bind, e2]
      · intro l' m uu t ht
        cases m with
        | head => rw [o2 l t hd'.1]; exact G.cfg t ht
        | tail _ m => exact g2 l' m (by rw [u1]; exact uu) t ht
      · intro l' t hm
        rw [o2 l' t (fun m => hm (List.mem_cons_of_mem _ m))]
        exact G.other l' t (by rintro rfl; exact absurd (List.mem_cons_self ..) hm)
    · rename_i hu
      obtain ⟨w2, b, e2, U2, c2, u2, g2, o2⟩ := ih h f hc (fun l m => hs l (List.mem_cons_of_mem _ m)) hd'.2 (fun l m => hf l (List.mem_cons_of_mem _ m))
      refine ⟨w2, b, e2, U2, c2, u2, ?_, fun l' t hm => o2 l' t (fun m => hm (List.mem_cons_of_mem _ m))⟩
      intro l' m uu t ht
      cases m with
      | head => exact absurd uu hu
      | tail _ m => exact g2 l' m uu t ht

theorem connect_works {E : Env} (hE : Works E) {w : W} (h : Inv w) (hc : w.conn = false) (hf : w.fsm = true)
    (hd : ∀ l t, (w.ts l t).fd = none) :
    ∃ w' a, connect E w true = .ok (w', a) ∧ Upds' w w' a ∧ w'.conn = true ∧ w'.used = w.used ∧ ∀ l < 256, w.used l = true → ∀ t ∈ slots, AsConfigured (w'.ts l t) := by
  simp only [connect, hc, Bool.false_eq_true, if_false, Bool.or_true, if_true]
  have hi : Inv { w with cli := true, conn := true, timer := false } := ⟨⟨h.used, h.nodup, h.mem, h.inj, h.lt⟩, h.reg⟩
  have hf1 : Fsm { w with cli := true, conn := true, timer := false } := ⟨rfl, by simp, fun _ => hf, (by intro e; cases e)⟩
  obtain ⟨w1, a, e, U, c, u, g, _⟩ := updLines_works hE (List.range 256) hi hf1 rfl (fun l m => List.mem_range.1 m) (List.nodup_range ..) (fun l _ t _ => hd l t)
  exact ⟨w1, a, e, ⟨⟨U.did.inv, U.did.fsm, U.did.bal⟩, U.ty, U.q, U.used, U.fsm, U.acts⟩, c, u, fun l m => g l (List.mem_range.2 m)⟩

theorem works_complete {E : Env} (h : Works E) : Complete E := by
  intro n num mode e
  obtain ⟨num', mode', e', g⟩ := (h n).1
  rw [e] at e'; cases e'; exact g

end Verif.E1d
