import Verif.Spec.Misdn
set_option maxRecDepth 10000
namespace Verif.Misdn

theorem bal_append : ∀ {a b : List Act} {s s' s'' : Int}, Balanced s a s' → Balanced s' b s'' → Balanced s (a ++ b) s'' := by
  intro a
  induction a with
  | nil => intro b s s' s'' h g; cases h; exact g
  | cons x a ih =>
    intro b s s' s'' h g
    cases x <;> simp only [Balanced, List.cons_append] at h ⊢
    case socket => exact ⟨h.1, ih h.2 g⟩
    case closed => exact ⟨h.1, h.2.1, ih h.2.2 g⟩
    case bind => exact ⟨h.1, h.2.1, ih h.2.2 g⟩
    case activate => exact ⟨h.1, h.2.1, ih h.2.2 g⟩
    case send => exact ⟨h.1, h.2.1, ih h.2.2 g⟩
    case sendTo => exact ⟨h.1, h.2.1, ih h.2.2 g⟩
    all_goals exact ih h g

theorem openFd_pos {s : Int} (h : 0 < s) : openFd s = s := if_pos h
theorem openFd_neg {s : Int} (h : ¬ 0 < s) : openFd s = 0 := if_neg h

theorem went_append (ty : Ty) : ∀ a b : List Act, wentOut ty (a ++ b) = wentOut ty a ++ wentOut ty b := by
  intro a b
  induction a with
  | nil => rfl
  | cons x a ih =>
    cases x <;> simp only [wentOut, List.cons_append, ih]
    · split
      · rfl
      · split <;> rfl
    · split <;> rfl
    · split <;> rfl

theorem acc_append : ∀ a b : List Act, accepted (a ++ b) = accepted a + accepted b := by
  intro a b
  induction a with
  | nil => simp [accepted]
  | cons x a ih =>
    cases x <;> simp only [accepted, List.cons_append, ih]
    split <;> omega

/-- the signals among actions -/
def sigs : List Act → List Sig
  | [] => []
  | .signal s :: as => s :: sigs as
  | _ :: as => sigs as

theorem sigs_append : ∀ a b : List Act, sigs (a ++ b) = sigs a ++ sigs b := by
  intro a b
  induction a with
  | nil => rfl
  | cons x a ih => cases x <;> simp only [sigs, List.cons_append, ih]

theorem signals_append (l : Nat) : ∀ a b : Acts, signals l (a ++ b) = signals l a ++ signals l b := by
  intro a b
  induction a with
  | nil => rfl
  | cons x a ih =>
    obtain ⟨⟨l', t⟩, x⟩ := x
    cases x <;> simp only [signals, List.cons_append, ih]
    split <;> rfl

theorem signals_tag (l l' t : Nat) (a : List Act) : signals l (tag l' t a) = if l' = l then sigs a else [] := by
  induction a with
  | nil => simp [tag, signals, sigs]
  | cons x a ih =>
    simp only [tag, List.map_cons] at ih ⊢
    cases x <;> simp only [signals, sigs, ih]
    split <;> rfl

theorem ofSlot_append (l t : Nat) (a b : Acts) : ofSlot l t (a ++ b) = ofSlot l t a ++ ofSlot l t b := by
  simp [ofSlot]

theorem ofSlot_tag (l t l' t' : Nat) (a : List Act) : ofSlot l t (tag l' t' a) = if l' = l ∧ t' = t then a else [] := by
  unfold ofSlot tag
  induction a with
  | nil => simp
  | cons x a ih =>
    by_cases h : l' = l ∧ t' = t
    · obtain ⟨rfl, rfl⟩ := h
      simp only [and_self, if_true] at ih ⊢
      simp only [List.map_cons]
      rw [List.filter_cons_of_pos (by simp), List.map_cons, ih]
    · rw [if_neg h] at ih ⊢
      simp only [List.map_cons]
      rw [List.filter_cons_of_neg (by simp only [decide_eq_true_eq, Prod.mk.injEq]; exact h), ih]

/-! ### Alarms -/

/-- the alarms of a line -/
def Line.st (x : Line) : Bool × Bool × Bool := (x.los, x.ais, x.rai)

theorem coh_append : ∀ {a b : List Sig} {st : Bool × Bool × Bool} {due : Option Sig}, Coherent st due a → Coherent (a.foldl after st) none b → Coherent st due (a ++ b) := by
  intro a
  induction a with
  | nil => intro b st due h g; cases h; exact g
  | cons x a ih =>
    intro b st due h g
    cases x <;> simp only [Coherent, List.cons_append] at h ⊢ <;> exact ⟨h.1, ih h.2 g⟩

/-- what an indication does -/
structure MphOk (x x' : Line) (a : List Act) : Prop where
  port : x'.port = x.port
  gone : x'.gone = x.gone
  dummy : x'.dummy = x.dummy
  coh : Coherent x.st none (sigs a)
  st : (sigs a).foldl after x.st = x'.st
  only : ∀ y ∈ a, ∃ s, y = .signal s

theorem mph_ok (x : Line) (i : Nat) : MphOk x (mph x i).1 (mph x i).2 := by
  obtain ⟨p, g, los, ais, rai, d⟩ := x
  unfold mph
  split
  · refine ⟨rfl, rfl, rfl, ?_, rfl, ?_⟩
    · simp [sigs, Coherent, after]
    · intro y m; simp only [List.mem_singleton] at m; exact ⟨_, m⟩
  all_goals repeat' split
  all_goals refine ⟨rfl, rfl, rfl, ?_, ?_, ?_⟩
  all_goals first
    | (revert los ais rai; decide)
    | (intro y m; simp only [alarmChange, List.mem_cons, List.mem_append] at m
       rcases m with m | m | m
       · exact ⟨_, m⟩
       · split at m
         · simp only [List.mem_singleton] at m; exact ⟨_, m⟩
         · cases m
       · split at m
         · simp only [List.mem_singleton] at m; exact ⟨_, m⟩
         · cases m)
    | (intro y m; cases m)
    | rfl
    | (cases los <;> cases ais <;> cases rai <;> simp [Line.st, Line.alarm, alarmChange, sigs, Coherent, after, anyAlarm])

theorem only_sig {a : List Act} (h : ∀ y ∈ a, ∃ s, y = Act.signal s) : (∀ ty, wentOut ty a = []) ∧ accepted a = 0 ∧ (∀ s, Balanced s a s) := by
  induction a with
  | nil => exact ⟨fun _ => rfl, rfl, fun _ => rfl⟩
  | cons x a ih =>
    obtain ⟨s, rfl⟩ := h x (List.mem_cons_self ..)
    exact ih (fun y m => h y (List.mem_cons_of_mem _ m))

/-! ### Events -/

/-- what an event does to a time slot and its line -/
structure Evd (cnf : Bool) (x x' : Line) (s s' : Slot) (a : List Act) : Prop where
  port : x'.port = x.port
  gone : x'.gone = x.gone
  dummy : x'.dummy = x.dummy
  coh : Coherent x.st none (sigs a)
  st : (sigs a).foldl after x.st = x'.st
  ty : s'.ty = s.ty
  cur : s'.cur = s.cur
  fd : s'.fd = s.fd
  reg : s'.reg = s.reg
  lapd : s'.lapd = s.lapd
  bal : 0 < s.fd → Balanced s.fd a s.fd
  fifo : s.ty = .sign ∨ s.ty = .raw ∨ s.ty = .hdlc → s.q.map (·.d) = wentOut s.ty a ++ s'.q.map (·.d)
  mem : ∀ m ∈ s'.q, m ∈ s.q
  acc : s.ty = .raw ∨ s.ty = .hdlc → accepted a + (if s.unconf then 1 else 0) ≤ (if cnf then 1 else 0) + (if s'.unconf then 1 else 0)
  wakeS : s.ty = .sign → (s.q ≠ [] → s.wr = true ∨ s.timer = true) → s'.q ≠ [] → s'.wr = true ∨ s'.timer = true
  wakeB : s.ty = .raw ∨ s.ty = .hdlc → AllAccepted a → (s.q ≠ [] → s.wr = true ∨ s.unconf = true) → s'.q ≠ [] → s'.wr = true ∨ s'.unconf = true

theorem Evd.refl (x : Line) (s : Slot) : Evd false x x s s [] :=
  ⟨rfl, rfl, rfl, rfl, rfl, rfl, rfl, rfl, rfl, rfl, fun _ => rfl, fun _ => rfl, fun _ h => h, fun _ => by simp [accepted], fun _ h => h, fun _ _ h => h⟩

theorem Evd.mono {x x' : Line} {s s' : Slot} {a : List Act} {c : Bool} (h : Evd false x x' s s' a) : Evd c x x' s s' a :=
  ⟨h.port, h.gone, h.dummy, h.coh, h.st, h.ty, h.cur, h.fd, h.reg, h.lapd, h.bal, h.fifo, h.mem, fun t => by have := h.acc t; simp only [Bool.false_eq_true, if_false] at this; omega, h.wakeS, h.wakeB⟩

theorem allAcc_append {a b : List Act} (h : AllAccepted (a ++ b)) : AllAccepted a ∧ AllAccepted b :=
  ⟨fun f d n m => h f d n (List.mem_append_left _ m), fun f d n m => h f d n (List.mem_append_right _ m)⟩

theorem Evd.trans {c : Bool} {x1 x2 x3 : Line} {s1 s2 s3 : Slot} {a b : List Act} (h : Evd c x1 x2 s1 s2 a) (g : Evd false x2 x3 s2 s3 b) : Evd c x1 x3 s1 s3 (a ++ b) := by
  refine ⟨g.port.trans h.port, g.gone.trans h.gone, g.dummy.trans h.dummy, ?_, ?_, g.ty.trans h.ty, g.cur.trans h.cur, g.fd.trans h.fd, g.reg.trans h.reg, g.lapd.trans h.lapd, ?_, ?_, ?_, ?_, ?_, ?_⟩
  · rw [sigs_append]; exact coh_append h.coh (by rw [h.st]; exact g.coh)
  · rw [sigs_append, List.foldl_append, h.st, g.st]
  · intro p; exact bal_append (h.bal p) (by have := g.bal (by rw [h.fd]; exact p); rw [h.fd] at this; exact this)
  · intro t; rw [went_append, List.append_assoc, h.fifo t]; have := g.fifo (by rw [h.ty]; exact t); rw [h.ty] at this; rw [this]
  · exact fun m k => h.mem m (g.mem m k)
  · intro t; have h1 := h.acc t; have h2 := g.acc (by rw [h.ty]; exact t); rw [acc_append]
    simp only [Bool.false_eq_true, if_false] at h2; omega
  · intro t k; exact g.wakeS (by rw [h.ty]; exact t) (h.wakeS t k)
  · intro t k1 k2; exact g.wakeB (by rw [h.ty]; exact t) (allAcc_append k1).2 (h.wakeB t (allAcc_append k1).1 k2)

theorem evd_mph (x : Line) (s : Slot) (d : List Byte) : Evd false x (mphInd x s d).1 s (mphInd x s d).2.1 (mphInd x s d).2.2 := by
  have h := mph_ok x (rd32 d HLEN)
  obtain ⟨o1, o2, o3⟩ := only_sig h.only
  exact ⟨h.port, h.gone, h.dummy, h.coh, h.st, rfl, rfl, rfl, rfl, rfl, fun _ => o3 _, fun _ => by show _ = wentOut s.ty (mph x (rd32 d HLEN)).2 ++ _; rw [o1]; rfl, fun _ h => h,
    fun _ => by show accepted (mph x (rd32 d HLEN)).2 + _ ≤ _; rw [o2]; exact Nat.le_refl _, fun _ h => h, fun _ _ h => h⟩

/-- actions that neither send nor signal -/
def Quiet : List Act → Prop
  | [] => True
  | .rx _ :: as => Quiet as
  | .rxLink _ _ _ :: as => Quiet as
  | .rxLapd _ :: as => Quiet as
  | .leak :: as => Quiet as
  | .up _ _ :: as => Quiet as
  | .down _ _ :: as => Quiet as
  | _ :: _ => False

theorem quiet_ok : ∀ {a : List Act}, Quiet a → sigs a = [] ∧ (∀ ty, wentOut ty a = []) ∧ accepted a = 0 ∧ ∀ s, Balanced s a s := by
  intro a
  induction a with
  | nil => intro _; exact ⟨rfl, fun _ => rfl, rfl, fun _ => rfl⟩
  | cons x a ih => intro h; cases x <;> first | exact ih h | exact absurd h id

theorem evd_quiet (x : Line) {s : Slot} {a : List Act} (h : Quiet a) (ls : List Link) : Evd false x x s { s with links := ls } a := by
  obtain ⟨h1, h2, h3, h4⟩ := quiet_ok h
  exact ⟨rfl, rfl, rfl, by rw [h1]; rfl, by rw [h1]; rfl, rfl, rfl, rfl, rfl, rfl, fun _ => h4 _, fun _ => by rw [h2]; rfl, fun _ h => h, fun _ => by rw [h3]; exact Nat.le_refl _, fun _ h => h, fun _ _ h => h⟩

theorem signRead_ok {ul : Bool} {x x' : Line} {s s' : Slot} {e : Ev} {a : List Act} (h : signRead ul x s e = .ok (x', s', a)) : Evd false x x' s s' a := by
  have q : ∀ {a}, Quiet a → Evd false x x s s a := fun k => evd_quiet x k s.links
  unfold signRead at h
  split at h
  · cases h; exact Evd.refl x s
  · rename_i d _
    split at h
    · cases h; exact Evd.refl x s
    · split at h
      · cases h; exact evd_quiet x (by trivial) _
      · split at h
        · unfold dlEst at h
          split at h
          · cases h; exact Evd.refl x s
          · cases h; exact evd_quiet x (by trivial) _
        · split at h
          · unfold dlRel at h
            split at h <;> cases h <;> exact q (by trivial)
          · split at h
            · unfold dlData at h
              split at h
              · cases h
              · split at h
                · cases h; exact Evd.refl x s
                · split at h <;> cases h <;> exact q (by trivial)
            · split at h
              · unfold phData at h
                split at h
                · cases h; exact q (by trivial)
                · split at h
                  · cases h
                  · split at h
                    · cases h; exact q (by trivial)
                    · cases h
              · split at h
                · injection h with h
                  have := evd_mph x s d
                  rw [h] at this; exact this
                · cases h; exact Evd.refl x s

theorem trauRead_ok {x x' : Line} {s s' : Slot} {e : Ev} {a : List Act} (ht : s.ty = .trau) (h : trauRead x s e = .ok (x', s', a)) : Evd false x x' s s' a := by
  unfold trauRead at h
  split at h
  · cases h; exact evd_quiet x (by trivial) s.links
  · rename_i d _
    split at h
    · split at h
      · cases h
      · cases h
        refine ⟨rfl, rfl, rfl, rfl, rfl, rfl, rfl, rfl, rfl, rfl, fun p => ⟨p, rfl, rfl⟩, ?_, fun _ h => h, ?_, ?_, ?_⟩ <;> rw [ht] <;> intro g <;> simp at g
    · cases h; exact Evd.refl x s

theorem evd_confirm (x : Line) (s : Slot) : Evd true x x s (confirm s) [] :=
  ⟨rfl, rfl, rfl, rfl, rfl, rfl, rfl, rfl, rfl, rfl, fun _ => rfl, fun _ => rfl, fun _ h => h, fun _ => by simp [accepted, confirm]; split <;> omega, fun _ _ _ => .inl rfl, fun _ _ _ _ => .inl rfl⟩

theorem at0_take (d : List Byte) (n i : Nat) (h : i < n) : at0 (d.take n) i = at0 d i := by
  unfold at0
  rw [List.getD_eq_getElem?_getD, List.getD_eq_getElem?_getD, List.getElem?_take_of_lt h]

theorem rd32_take (d : List Byte) (n i : Nat) (h : i + 3 < n) : rd32 (d.take n) i = rd32 d i := by
  unfold rd32
  rw [at0_take _ _ _ (by omega), at0_take _ _ _ (by omega), at0_take _ _ _ (by omega), at0_take _ _ _ (by omega)]

theorem isCnf_of {e : Ev} {d : List Byte} (hr : e.rd = true) (hd : e.data.map (fun d => d.take 4096) = some d) (h : rd32 d 0 = PH_DATA_CNF) : isCnf e = true := by
  unfold isCnf
  cases hx : e.data with
  | none => rw [hx] at hd; cases hd
  | some z =>
    rw [hx] at hd
    simp only [Option.map_some, Option.some.injEq] at hd
    subst hd
    rw [rd32_take _ _ _ (by decide)] at h
    simp only [hr, Bool.true_and, decide_eq_true_eq]
    exact h

theorem rawRead_ok {x x' : Line} {s s' : Slot} {e : Ev} {a : List Act} (hr : e.rd = true) (h : rawRead x s e = .ok (x', s', a)) : Evd (isCnf e) x x' s s' a := by
  unfold rawRead at h
  split at h
  · cases h; exact (evd_quiet x (by trivial) s.links).mono
  · rename_i d hd
    split at h
    · split at h
      · cases h
      · cases h; exact (evd_quiet x (by trivial) s.links).mono
    · split at h
      · rename_i hc
        cases h
        rw [isCnf_of hr hd hc]; exact evd_confirm x s
      · cases h; exact (Evd.refl x s).mono

theorem hdlcRead_ok {x x' : Line} {s s' : Slot} {e : Ev} {a : List Act} (hr : e.rd = true) (h : hdlcRead x s e = .ok (x', s', a)) : Evd (isCnf e) x x' s s' a := by
  unfold hdlcRead at h
  split at h
  · cases h; exact (evd_quiet x (by trivial) s.links).mono
  · rename_i d hd
    split at h
    · split at h
      · cases h
      · cases h; exact (evd_quiet x (by trivial) s.links).mono
    · split at h
      · rename_i hc
        cases h
        rw [isCnf_of hr hd hc]; exact evd_confirm x s
      · split at h
        · injection h with h
          have := evd_mph x s d
          rw [h] at this; exact this.mono
        · cases h; exact (Evd.refl x s).mono

theorem evRead_ok {ul : Bool} {x x' : Line} {s s' : Slot} {e : Ev} {a : List Act} (hr : e.rd = true) (h : evRead ul x s e = .ok (x', s', a)) : Evd (isCnf e) x x' s s' a := by
  unfold evRead at h
  cases ht : s.ty <;> simp only [ht] at h
  case none => cases h; exact (Evd.refl x s).mono
  case i460 => cases h; exact (Evd.refl x s).mono
  case sign => exact (signRead_ok h).mono
  case trau => exact (trauRead_ok ht h).mono
  case raw => exact rawRead_ok hr h
  case hdlc => exact hdlcRead_ok hr h

/-! ### Writing -/

theorem push_inv {m : Msg} {h d : List Byte} (e : push m h = .ok d) : d = h ++ m.d ∧ 8 ≤ m.room := by
  unfold push at e
  split at e
  · cases e
  · cases e; exact ⟨rfl, by simp only [HLEN] at *; omega⟩

theorem head_len (p i : Nat) : (head p i).length = 8 := rfl

theorem head_drop (p i : Nat) (d : List Byte) : (head p i ++ d).drop 8 = d := by
  rw [List.drop_append_of_le_length (by rw [head_len]; exact Nat.le_refl _), List.drop_of_length_le (by rw [head_len]; exact Nat.le_refl _), List.nil_append]

theorem signWrite_ok {ul : Bool} {s s' : Slot} {e : Ev} {a : List Act} (x : Line) (ht : s.ty = .sign) (h : signWrite ul s e = .ok (s', a)) : Evd false x x s s' a := by
  unfold signWrite at h
  have n1 : ¬ (s.ty = .raw ∨ s.ty = .hdlc) := by rw [ht]; intro g; rcases g with g | g <;> cases g
  split at h
  · rename_i hq
    cases h
    exact ⟨rfl, rfl, rfl, rfl, rfl, rfl, rfl, rfl, rfl, rfl, fun _ => rfl, fun _ => rfl, fun _ h => h, fun g => absurd g n1, fun _ _ g => absurd hq g, fun g => absurd g n1⟩
  · rename_i m q hq
    split at h
    · split at h
      · cases h
        refine ⟨rfl, rfl, rfl, rfl, rfl, rfl, rfl, rfl, rfl, rfl, fun _ => rfl, ?_, ?_, fun g => absurd g n1, fun _ _ _ => .inr rfl, fun g => absurd g n1⟩
        · intro _; rw [hq, ht]; rfl
        · intro y k; rw [hq]; exact List.mem_cons_of_mem _ k
      · cases h
    · cases hp : push m (head DL_DATA_REQ 0) with
      | error f => rw [hp] at h; cases h
      | ok d =>
        rw [hp] at h
        cases h
        obtain ⟨rfl, _⟩ := push_inv hp
        refine ⟨rfl, rfl, rfl, rfl, rfl, rfl, rfl, rfl, rfl, rfl, fun p => ⟨p, rfl, rfl⟩, ?_, ?_, fun g => absurd g n1, fun _ _ _ => .inr rfl, fun g => absurd g n1⟩
        · intro _; rw [hq, ht]
          show m.d :: _ = ((head DL_DATA_REQ 0 ++ m.d).drop 8 :: []) ++ _
          rw [head_drop]; rfl
        · intro y k; rw [hq]; exact List.mem_cons_of_mem _ k

theorem rev_rev : ∀ b : Byte, rev (rev b) = b := by decide +kernel

theorem bWrite_ok {f : Byte → Byte} {s s' : Slot} {e : Ev} {a : List Act} (x : Line) (ht : s.ty = .raw ∧ f = rev ∨ s.ty = .hdlc ∧ f = id) (h : bWrite f s e = .ok (s', a)) : Evd false x x s s' a := by
  unfold bWrite at h
  have n1 : ¬ s.ty = .sign := by intro g; rw [g] at ht; rcases ht with g | g <;> cases g.1
  split at h
  · rename_i hu
    cases h
    refine ⟨rfl, rfl, rfl, rfl, rfl, rfl, rfl, rfl, rfl, rfl, fun _ => rfl, fun _ => rfl, fun _ h => h, fun _ => by simp [accepted], fun g => absurd g n1, fun _ _ _ _ => .inr hu⟩
  · rename_i hu
    split at h
    · rename_i hq
      cases h
      exact ⟨rfl, rfl, rfl, rfl, rfl, rfl, rfl, rfl, rfl, rfl, fun _ => rfl, fun _ => rfl, fun _ h => h, fun _ => by simp [accepted], fun g => absurd g n1, fun _ _ _ g => absurd hq g⟩
    · rename_i m q hq
      cases hp : push { m with d := m.d.map f } (head PH_DATA_REQ 0) with
      | error f => rw [hp] at h; cases h
      | ok d =>
        rw [hp] at h
        cases h
        obtain ⟨rfl, _⟩ := push_inv hp
        refine ⟨rfl, rfl, rfl, rfl, rfl, rfl, rfl, rfl, rfl, rfl, fun p => ⟨p, rfl, rfl⟩, ?_, ?_, ?_, fun g => absurd g n1, ?_⟩
        · intro _
          rcases ht with ⟨ht, rfl⟩ | ⟨ht, rfl⟩ <;> rw [hq, ht]
          · show m.d :: _ = (((head PH_DATA_REQ 0 ++ m.d.map rev).drop 8).map rev :: []) ++ _
            rw [head_drop, List.map_map, show rev ∘ rev = id from funext rev_rev, List.map_id]; rfl
          · show m.d :: _ = ((head PH_DATA_REQ 0 ++ m.d.map id).drop 8 :: []) ++ _
            rw [head_drop, List.map_id]; rfl
        · intro y k; rw [hq]; exact List.mem_cons_of_mem _ k
        · intro _
          simp only [accepted]
          generalize ((head PH_DATA_REQ 0 ++ m.d.map f).length : Int) = L
          rw [if_neg hu]
          by_cases g : L ≤ e.n
          · rw [if_pos g]
            simp [show ¬ e.n < L by omega]
          · rw [if_neg g]; simp
        · intro _ k _ _
          right
          have := k _ _ _ (List.mem_cons_self ..)
          simp only [Bool.not_eq_true', decide_eq_false_iff_not]
          exact Int.not_lt.mpr this

theorem evWrite_ok {ul : Bool} {s s' : Slot} {e : Ev} {a : List Act} (x : Line) (h : evWrite ul s e = .ok (s', a)) : Evd false x x s s' a := by
  unfold evWrite at h
  cases ht : s.ty <;> simp only [ht] at h
  case sign => exact signWrite_ok x ht h
  case raw => exact bWrite_ok x (.inl ⟨ht, rfl⟩) h
  case hdlc => exact bWrite_ok x (.inr ⟨ht, rfl⟩) h
  all_goals (cases h; exact Evd.refl x s)

theorem fdCb_inv {ul : Bool} {x x' : Line} {s s' : Slot} {e : Ev} {a : List Act} (h : fdCb ul x s e = .ok (x', s', a)) :
    ∃ s1 a1 a2, optR e.rd x s (fun x s => evRead ul x s e) = .ok (x', s1, a1) ∧ optW e.wr s1 (fun s => evWrite ul s e) = .ok (s', a2) ∧ a = a1 ++ a2 := by
  simp only [fdCb, bind, Except.bind] at h
  cases h1 : optR e.rd x s (fun x s => evRead ul x s e) with
  | error f => rw [h1] at h; cases h
  | ok p1 =>
    obtain ⟨x1, s1, a1⟩ := p1
    rw [h1] at h
    simp only at h
    cases h2 : optW e.wr s1 (fun s => evWrite ul s e) with
    | error f => rw [h2] at h; cases h
    | ok p2 =>
      obtain ⟨s2, a2⟩ := p2
      rw [h2] at h
      cases h
      exact ⟨s1, a1, a2, rfl, h2, rfl⟩

theorem optR_ok {ul : Bool} {x x' : Line} {s s' : Slot} {e : Ev} {a : List Act} (h : optR e.rd x s (fun x s => evRead ul x s e) = .ok (x', s', a)) : Evd (isCnf e) x x' s s' a := by
  unfold optR at h
  split at h
  · rename_i hr; exact evRead_ok hr h
  · cases h; exact (Evd.refl x s).mono

theorem optW_ok {ul b : Bool} {s s' : Slot} {e : Ev} {a : List Act} (x : Line) (h : optW b s (fun s => evWrite ul s e) = .ok (s', a)) : Evd false x x s s' a := by
  unfold optW at h
  split at h
  · exact evWrite_ok x h
  · cases h; exact Evd.refl x s

theorem fdCb_ok {ul : Bool} {x x' : Line} {s s' : Slot} {e : Ev} {a : List Act} (h : fdCb ul x s e = .ok (x', s', a)) : Evd (isCnf e) x x' s s' a := by
  obtain ⟨s1, a1, a2, h1, h2, rfl⟩ := fdCb_inv h
  exact (optR_ok h1).trans (optW_ok x' h2)

/-- an event does not make the driver fail -/
theorem fdCb_total {ul : Bool} (x : Line) {s : Slot} (e : Ev) (hd : ∀ d, e.data = some d → 8 ≤ d.length) (hl : ul = true → s.ty = .sign → s.lapd = true) (hm : ∀ m ∈ s.q, 8 ≤ m.room) :
    ∃ x' s' a, fdCb ul x s e = .ok (x', s', a) := by
  have len : ∀ {n : Nat} {d : List Byte}, 8 ≤ n → e.data.map (fun d => d.take n) = some d → ¬ d.length < HLEN := by
    intro n d hn g
    cases hx : e.data with
    | none => rw [hx] at g; cases g
    | some z =>
      rw [hx] at g; cases g
      have := hd z hx
      rw [List.length_take]
      simp only [HLEN]; omega
  have pu : ∀ {m : Msg} {h : List Byte}, 8 ≤ m.room → push m h = .ok (h ++ m.d) := by
    intro m h k; unfold push; rw [if_neg (by simp only [HLEN]; omega)]
  have r1 : ∀ r : Res, ∃ x' s' a, (.ok r : M Res) = .ok (x', s', a) := fun r => ⟨r.1, r.2.1, r.2.2, rfl⟩
  have r2 : ∀ r : Slot × List Act, ∃ s' a, (.ok r : M (Slot × List Act)) = .ok (s', a) := fun r => ⟨r.1, r.2, rfl⟩
  have k1 : ∃ x' s' a, evRead ul x s e = .ok (x', s', a) := by
    unfold evRead
    cases ht : s.ty with
    | none => exact r1 _
    | i460 => exact r1 _
    | sign =>
      simp only [signRead]
      split
      · exact r1 _
      · rename_i d hdd
        repeat' split
        all_goals first
          | exact r1 _
          | (unfold dlData; rw [if_neg (len (by decide) hdd)]; split
             · exact r1 _
             · split <;> exact r1 _)
          | (unfold phData; split
             · exact r1 _
             · rename_i hu
               rw [if_neg (len (by decide) hdd), if_pos (hl (by cases ul <;> simp at hu ⊢) ht)]
               exact r1 _)
    | trau =>
      simp only [trauRead]
      split
      · exact r1 _
      · rename_i d hdd
        split
        · rw [if_neg (len (by decide) hdd)]; exact r1 _
        · exact r1 _
    | raw =>
      simp only [rawRead]
      split
      · exact r1 _
      · rename_i d hdd
        split
        · rw [if_neg (len (by decide) hdd)]; exact r1 _
        · split <;> exact r1 _
    | hdlc =>
      simp only [hdlcRead]
      split
      · exact r1 _
      · rename_i d hdd
        split
        · rw [if_neg (len (by decide) hdd)]; exact r1 _
        · split
          · exact r1 _
          · split <;> exact r1 _
  have k2 : ∃ x' s' a, optR e.rd x s (fun x s => evRead ul x s e) = .ok (x', s', a) := by
    unfold optR; split
    · exact k1
    · exact r1 _
  obtain ⟨x1, s1, a1, h1⟩ := k2
  have v := optR_ok h1
  have hl1 : ul = true → s1.ty = .sign → s1.lapd = true := by rw [v.ty, v.lapd]; exact hl
  have hm1 : ∀ m ∈ s1.q, 8 ≤ m.room := fun m k => hm m (v.mem m k)
  have k3 : ∃ s' a, evWrite ul s1 e = .ok (s', a) := by
    unfold evWrite
    have hb : ∀ f, ∃ s' a, bWrite f s1 e = .ok (s', a) := by
      intro f
      unfold bWrite
      split
      · exact r2 _
      · split
        · exact r2 _
        · rename_i m q hq
          rw [pu (by exact hm1 m (by rw [hq]; exact List.mem_cons_self ..))]
          exact r2 _
    cases ht : s1.ty with
    | none => exact r2 _
    | i460 => exact r2 _
    | trau => exact r2 _
    | raw => exact hb _
    | hdlc => exact hb _
    | sign =>
      simp only [signWrite]
      split
      · exact r2 _
      · rename_i m q hq
        split
        · rename_i hu; rw [if_pos (hl1 hu ht)]; exact r2 _
        · rw [pu (hm1 m (by rw [hq]; exact List.mem_cons_self ..))]; exact r2 _
  have k4 : ∃ s' a, optW e.wr s1 (fun s => evWrite ul s e) = .ok (s', a) := by
    unfold optW; split
    · exact k3
    · exact r2 _
  obtain ⟨s2, a2, h2⟩ := k4
  exact ⟨x1, s2, a1 ++ a2, by simp only [fdCb, bind, Except.bind, h1, h2]⟩

end Verif.Misdn
