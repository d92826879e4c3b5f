import Verif.Proof.E1dActs
/-! Write interest of the osmo-e1d driver -/
set_option maxRecDepth 10000
namespace Verif.E1d

/-- time slots with messages are watched for writing -/
def Pend (w : W) : Prop := ∀ l t, (w.ts l t).q ≠ [] → (w.ts l t).wr = true

/-- the connection is not established, and the watching of queued messages continues -/
structure Keeps (w w' : W) : Prop where
  conn : w'.conn = true → w.conn = true
  pend : w.conn = true → Pend w → Pend w'

theorem Keeps.refl (w : W) : Keeps w w := ⟨fun h => h, fun _ h => h⟩
theorem Keeps.trans {a b c : W} (h : Keeps a b) (g : Keeps b c) (hb : a.conn = true → b.conn = true ∨ ∀ l t, (c.ts l t).q = (b.ts l t).q ∧ (c.ts l t).wr = (b.ts l t).wr) : Keeps a c := by
  refine ⟨fun x => h.conn (g.conn x), fun x p => ?_⟩
  rcases hb x with y | y
  · exact g.pend y (h.pend x p)
  · intro l t hq
    rw [(y l t).1] at hq
    rw [(y l t).2]
    exact h.pend x p l t hq

theorem connLost_keeps {w w' : W} (h : Inv w) (f : Fsm w) {a : List Act} (hs : connLost w = .ok (w', a)) : Keeps w w' := by
  obtain ⟨w1, b, e, _, s, c, _, wr, _, _⟩ := connLost_ok h f
  rw [e] at hs; cases hs
  exact ⟨(fun g => by rw [c] at g; cases g), fun _ p l t hq => by rw [wr]; exact p l t (by rw [← s.q]; exact hq)⟩

theorem evRead_keeps {w : W} (h : Inv w) (f : Fsm w) {l t : Nat} {e : Ev} {w' : W} {a : List Act} (hs : evRead w l t e = .ok (w', a)) :
    w' = w ∨ ∃ b, connLost w = .ok (w', b) := by
  obtain ⟨w1, b, e1, _⟩ := connLost_ok h f
  have key : ∀ r : M (W × List Act), r = .ok (w', a) → ((∃ c, r = .ok (w, c)) ∨ ∃ c, r = .ok (w1, c)) → w' = w ∨ ∃ b, connLost w = .ok (w', b) := by
    rintro r rfl (⟨c, g⟩ | ⟨c, g⟩) <;> cases g
    · exact .inl rfl
    · exact .inr ⟨b, e1⟩
  refine key _ hs ?_
  simp only [evRead]
  cases (w.ts l t).ty with
  | none => exact .inl ⟨_, rfl⟩
  | i460 => exact .inl ⟨_, rfl⟩
  | sign =>
    simp only [signRead, e1, bind, Except.bind]
    split
    · exact .inl ⟨_, rfl⟩
    · exact .inr ⟨_, rfl⟩
  | hdlc =>
    simp only [hdlcRead, e1]
    split
    · exact .inl ⟨_, rfl⟩
    · exact .inr ⟨_, rfl⟩
  | raw =>
    simp only [rawRead, e1]
    split
    · exact .inr ⟨_, rfl⟩
    · split
      · exact .inl ⟨_, rfl⟩
      · split
        · exact .inr ⟨_, rfl⟩
        · exact .inl ⟨_, rfl⟩
  | trau =>
    simp only [trauRead, e1, bind, Except.bind]
    split
    · exact .inr ⟨_, rfl⟩
    · split
      · by_cases hn : e.n ≤ 0
        · simp only [trauWrite, if_pos hn, e1, bind, Except.bind]; exact .inr ⟨_, rfl⟩
        · simp only [trauWrite, if_neg hn]; exact .inl ⟨_, rfl⟩
      · split
        · exact .inr ⟨_, rfl⟩
        · exact .inl ⟨_, rfl⟩

theorem pop_keeps {w : W} {l t : Nat} {m : List Byte} {q : List (List Byte)} (hq : (w.ts l t).q = m :: q) : Keeps w (setTs w l t { w.ts l t with q := q }) := by
  refine ⟨fun h => h, fun _ p x y => ?_⟩
  rw [setTs_ts]
  split
  · intro _
    exact p l t (by rw [hq]; intro e; cases e)
  · exact p x y

theorem stop_keeps {w : W} {l t : Nat} (hq : (w.ts l t).q = []) : Keeps w (setTs w l t { w.ts l t with wr := false }) := by
  refine ⟨fun h => h, fun _ p x y => ?_⟩
  rw [setTs_ts]
  split
  · intro g; exact absurd hq g
  · exact p x y

/-- a queue of a signalling time slot is empty -/
theorem evWrite_keeps {w : W} (h : Inv w) (f : Fsm w) {l t : Nat} (hq : (w.ts l t).ty = .sign → (w.ts l t).q = []) {e : Ev} {w' : W} {a : List Act}
    (hs : evWrite w l t e = .ok (w', a)) : Keeps w w' := by
  simp only [evWrite] at hs
  cases ht : (w.ts l t).ty with
  | none => simp only [ht] at hs; cases hs; exact Keeps.refl w
  | i460 => simp only [ht] at hs; cases hs; exact Keeps.refl w
  | trau => simp only [ht] at hs; cases hs; exact Keeps.refl w
  | sign => simp only [ht] at hs; cases hs; exact stop_keeps (hq ht)
  | raw =>
    simp only [ht] at hs; simp only [rawWrite] at hs
    split at hs
    · rename_i hq; cases hs; exact stop_keeps hq
    · rename_i m q hq
      have k := did_keep h f l t { w.ts l t with q := q } rfl rfl
      split at hs
      · obtain ⟨w1, b, e1, _⟩ := connLost_ok k.inv k.fsm
        simp only [e1, bind, Except.bind] at hs
        cases hs
        have := connLost_keeps k.inv k.fsm e1
        exact (pop_keeps hq).trans this (fun g => .inl g)
      · cases hs; exact pop_keeps hq
  | hdlc =>
    simp only [ht] at hs; simp only [hdlcWrite] at hs
    split at hs
    · rename_i hq; cases hs; exact stop_keeps hq
    · rename_i m q hq
      have k := did_keep h f l t { w.ts l t with q := q } rfl rfl
      split at hs
      · obtain ⟨w1, b, e1, _⟩ := connLost_ok k.inv k.fsm
        simp only [e1, bind, Except.bind] at hs
        cases hs
        have := connLost_keeps k.inv k.fsm e1
        exact (pop_keeps hq).trans this (fun g => .inl g)
      · cases hs; exact pop_keeps hq

/-- only time slots of type raw or HDLC have messages in the queue -/
def Typed (w : W) : Prop := ∀ l t, (w.ts l t).q ≠ [] → (w.ts l t).ty = .raw ∨ (w.ts l t).ty = .hdlc

theorem typed_init : Typed init := by intro l t g; exact absurd rfl g

theorem ev_typed {w w' : W} {a : List Act} (v : Ev' w w' a) (h : Typed w) (hq : ∀ l t, (w'.ts l t).q ≠ [] → (w.ts l t).q ≠ []) : Typed w' := by
  intro l t g
  rw [v.ty]; exact h l t (hq l t g)

theorem opt_id {b : Bool} {w w' : W} {a : List Act} {k : W → M (W × List Act)} (h : opt b w k = .ok (w', a)) : (w' = w ∧ a = []) ∨ k w = .ok (w', a) := by
  cases b with
  | false => cases h; exact .inl ⟨rfl, rfl⟩
  | true => exact .inr h

theorem connLost_q {w w' : W} (h : Inv w) (f : Fsm w) {a : List Act} (hs : connLost w = .ok (w', a)) : ∀ l t, (w'.ts l t).q = (w.ts l t).q := by
  obtain ⟨w1, b, e, _, s, c, _, wr, _, _⟩ := connLost_ok h f
  rw [e] at hs; cases hs
  exact s.q

theorem evWrite_q {w : W} (h : Inv w) (f : Fsm w) {l t : Nat} {e : Ev} {w' : W} {a : List Act} (hs : evWrite w l t e = .ok (w', a)) :
    ∀ x y, (w'.ts x y).q ≠ [] → (w.ts x y).q ≠ [] := by
  have pop : ∀ (m : List Byte) (q : List (List Byte)), (w.ts l t).q = m :: q → ∀ x y, ((setTs w l t { w.ts l t with q := q }).ts x y).q ≠ [] → (w.ts x y).q ≠ [] := by
    intro m q hq x y
    rw [setTs_ts]; split
    · rename_i g; rw [g.1, g.2]; intro _; rw [hq]; intro e; cases e
    · intro g; exact g
  have stop : ∀ x y, ((setTs w l t { w.ts l t with wr := false }).ts x y).q ≠ [] → (w.ts x y).q ≠ [] := by
    intro x y
    rw [setTs_ts]; split
    · rename_i g; rw [g.1, g.2]; exact fun g => g
    · exact fun g => g
  simp only [evWrite] at hs
  cases ht : (w.ts l t).ty with
  | none => simp only [ht] at hs; cases hs; exact fun _ _ g => g
  | i460 => simp only [ht] at hs; cases hs; exact fun _ _ g => g
  | trau => simp only [ht] at hs; cases hs; exact fun _ _ g => g
  | sign => simp only [ht] at hs; cases hs; exact stop
  | raw =>
    simp only [ht] at hs; simp only [rawWrite] at hs
    split at hs
    · cases hs; exact stop
    · rename_i m q hq
      have k := did_keep h f l t { w.ts l t with q := q } rfl rfl
      split at hs
      · obtain ⟨w1, b, e1, _⟩ := connLost_ok k.inv k.fsm
        simp only [e1, bind, Except.bind] at hs
        cases hs
        intro x y g
        rw [connLost_q k.inv k.fsm e1] at g
        exact pop m q hq x y g
      · cases hs; exact pop m q hq
  | hdlc =>
    simp only [ht] at hs; simp only [hdlcWrite] at hs
    split at hs
    · cases hs; exact stop
    · rename_i m q hq
      have k := did_keep h f l t { w.ts l t with q := q } rfl rfl
      split at hs
      · obtain ⟨w1, b, e1, _⟩ := connLost_ok k.inv k.fsm
        simp only [e1, bind, Except.bind] at hs
        cases hs
        intro x y g
        rw [connLost_q k.inv k.fsm e1] at g
        exact pop m q hq x y g
      · cases hs; exact pop m q hq

theorem fdCb_keeps {w : W} (h : Inv w) (f : Fsm w) (hT : Typed w) {l t : Nat} {e : Ev} {w' : W} {a : List Act} (hs : fdCb w l t e = .ok (w', a)) :
    Keeps w w' ∧ ∀ x y, (w'.ts x y).q ≠ [] → (w.ts x y).q ≠ [] := by
  simp only [fdCb] at hs
  split at hs
  · obtain ⟨w1, a1, e1, v1⟩ := opt_ok h f e.rd (fun w => evRead w l t e) (evRead_ok h f l t e)
    obtain ⟨w2, b, e2, v2⟩ := opt_ok v1.did.inv v1.did.fsm e.wr (fun w => evWrite w l t e) (evWrite_ok v1.did.inv v1.did.fsm l t e)
    simp only [e1, e2, bind, Except.bind] at hs
    cases hs
    have r1 : (w1 = w) ∨ ∃ b, connLost w = .ok (w1, b) := by
      rcases opt_id e1 with ⟨g, _⟩ | g
      · exact .inl g
      · exact evRead_keeps h f g
    have q1 : ∀ x y, (w1.ts x y).q = (w.ts x y).q := by
      rcases r1 with rfl | ⟨b, g⟩
      · exact fun _ _ => rfl
      · exact connLost_q h f g
    have k1 : Keeps w w1 := by
      rcases r1 with rfl | ⟨b, g⟩
      · exact Keeps.refl _
      · exact connLost_keeps h f g
    have hq : (w1.ts l t).ty = .sign → (w1.ts l t).q = [] := by
      intro g
      rw [q1]
      refine Decidable.byContradiction fun n => ?_
      have := hT l t n
      rw [← v1.ty, g] at this
      rcases this with e | e <;> cases e
    have r2 : Keeps w1 w' := by
      rcases opt_id e2 with ⟨rfl, _⟩ | g
      · exact Keeps.refl _
      · exact evWrite_keeps v1.did.inv v1.did.fsm hq g
    have q2 : ∀ x y, (w'.ts x y).q ≠ [] → (w1.ts x y).q ≠ [] := by
      rcases opt_id e2 with ⟨rfl, _⟩ | g
      · exact fun _ _ g => g
      · exact evWrite_q v1.did.inv v1.did.fsm g
    refine ⟨⟨fun g => k1.conn (r2.conn g), fun c p => ?_⟩, fun x y g => by rw [← q1]; exact q2 x y g⟩
    by_cases c1 : w1.conn = true
    · exact r2.pend c1 (k1.pend c p)
    · rcases r1 with rfl | ⟨b1, g⟩
      · exact absurd c c1
      · -- the connection was lost while reading: the interest of the others is as before, the one written to has been popped or stopped
        have p1 := k1.pend c p
        rcases opt_id e2 with ⟨rfl, _⟩ | g2
        · exact p1
        · simp only [evWrite] at g2
          have lost : ∀ {u u' : W} {c : List Act}, u.conn = false → connLost u = .ok (u', c) → u' = u := by
            intro u u' c hc g
            simp only [connLost, hc, Bool.false_eq_true, if_false] at g
            cases g; rfl
          have c1 : w1.conn = false := by simpa using c1
          cases ht : (w1.ts l t).ty with
          | none => simp only [ht] at g2; cases g2; exact p1
          | i460 => simp only [ht] at g2; cases g2; exact p1
          | trau => simp only [ht] at g2; cases g2; exact p1
          | sign =>
            simp only [ht] at g2; simp only [signWrite] at g2; cases g2
            intro x y; rw [setTs_ts]; split
            · intro n; exact absurd (hq ht) n
            · exact p1 x y
          | raw =>
            simp only [ht] at g2; simp only [rawWrite] at g2
            split at g2
            · rename_i hq; cases g2
              intro x y; rw [setTs_ts]; split
              · intro n; exact absurd hq n
              · exact p1 x y
            · rename_i m q hq
              have pp : Pend (setTs w1 l t { w1.ts l t with q := q }) := by
                intro x y; rw [setTs_ts]; split
                · intro _; exact p1 l t (by rw [hq]; intro e; cases e)
                · exact p1 x y
              have k := did_keep v1.did.inv v1.did.fsm l t { w1.ts l t with q := q } rfl rfl
              obtain ⟨w3, c3, e3, _⟩ := connLost_ok k.inv k.fsm
              have := lost (u := setTs w1 l t { w1.ts l t with q := q }) c1 e3
              subst this
              simp only [e3, bind, Except.bind] at g2
              split at g2 <;> cases g2 <;> exact pp
          | hdlc =>
            simp only [ht] at g2; simp only [hdlcWrite] at g2
            split at g2
            · rename_i hq; cases g2
              intro x y; rw [setTs_ts]; split
              · intro n; exact absurd hq n
              · exact p1 x y
            · rename_i m q hq
              have pp : Pend (setTs w1 l t { w1.ts l t with q := q }) := by
                intro x y; rw [setTs_ts]; split
                · intro _; exact p1 l t (by rw [hq]; intro e; cases e)
                · exact p1 x y
              have k := did_keep v1.did.inv v1.did.fsm l t { w1.ts l t with q := q } rfl rfl
              obtain ⟨w3, c3, e3, _⟩ := connLost_ok k.inv k.fsm
              have := lost (u := setTs w1 l t { w1.ts l t with q := q }) c1 e3
              subst this
              simp only [e3, bind, Except.bind] at g2
              split at g2 <;> cases g2 <;> exact pp
  · cases hs; exact ⟨Keeps.refl w, fun _ _ g => g⟩

theorem wantWrite_keeps (w : W) (l t : Nat) : Keeps w (wantWrite w l t) ∧ (∀ x y, ((wantWrite w l t).ts x y).q = (w.ts x y).q) ∧
    (w.conn = true → (w.ts l t).ty ≠ .trau → (w.ts l t).ty ≠ .i460 → ((wantWrite w l t).ts l t).wr = true) ∧ (wantWrite w l t).conn = w.conn := by
  simp only [wantWrite]
  split
  · rename_i hc; exact ⟨Keeps.refl w, fun _ _ => rfl, (fun g => by rw [hc] at g; cases g), rfl⟩
  · split
    · rename_i ht
      refine ⟨Keeps.refl w, fun _ _ => rfl, fun _ h1 h2 => ?_, rfl⟩
      rcases ht with e | e
      · exact absurd e h1
      · exact absurd e h2
    · refine ⟨⟨fun h => h, fun _ p x y => ?_⟩, fun x y => ?_, fun _ _ _ => by rw [setTs_self], rfl⟩
      · rw [setTs_ts]; split
        · intro _; rfl
        · exact p x y
      · rw [setTs_ts]; split
        · rename_i g; rw [g.1, g.2]
        · rfl

/-- all operations but updating and reconnecting -/
theorem step_keeps {E : Env} (hE : Complete E) {w : W} (h : Inv w) (f : Fsm w) (hT : Typed w) {op : Op} (hv : op.valid = true) (h1 : ∀ l ok, op ≠ .update l ok)
    (h2 : ∀ ok, op ≠ .timer ok) {w' : W} {a : List Act} (hs : step E w op = .ok (w', a)) : Keeps w w' := by
  cases op with
  | update l ok => exact absurd rfl (h1 l ok)
  | timer ok => exact absurd rfl (h2 ok)
  | config l t ty =>
    have hs : config w l t ty = (w', a) := Except.ok.inj hs
    simp only [config] at hs
    split at hs <;> cases hs
    · exact Keeps.refl w
    · refine ⟨fun h => h, fun _ p x y => ?_⟩
      rw [setTs_ts]; split
      · intro n; exact absurd rfl n
      · exact p x y
  | event l t e =>
    simp only [step] at hs
    split at hs
    · exact (fdCb_keeps h f hT hs).1
    · cases hs; exact Keeps.refl w
  | send l t m =>
    simp only [step, send] at hs
    split at hs
    · rename_i ht
      cases hs
      obtain ⟨k, q, wr, c⟩ := wantWrite_keeps w l t
      refine ⟨fun g => k.conn g, fun g p x y => ?_⟩
      rw [setTs_ts]; split
      · intro _
        refine wr g ?_ ?_ <;> rcases ht with e | e <;> rw [e] <;> intro x <;> cases x
      · exact k.pend g p x y
    · cases hs
  | want l t => cases hs; exact (wantWrite_keeps w l t).1
  | lapdTx l t d n =>
    simp only [step] at hs
    split at hs
    · obtain ⟨w1, b, e1, _⟩ := connLost_ok h f
      simp only [lapdTx, e1, bind, Except.bind] at hs
      split at hs
      · cases hs; exact Keeps.refl w
      · split at hs
        · cases hs; exact connLost_keeps h f e1
        · cases hs; exact Keeps.refl w
    · cases hs; exact Keeps.refl w

theorem step_typed {E : Env} (hE : Complete E) {w : W} (h : Inv w) (f : Fsm w) (hT : Typed w) {op : Op} (hv : op.valid = true) {w' : W} {a : List Act}
    (hs : step E w op = .ok (w', a)) : Typed w' := by
  have same : ∀ {u u' : W}, (∀ l t, (u'.ts l t).ty = (u.ts l t).ty) → (∀ l t, (u'.ts l t).q = (u.ts l t).q) → Typed u → Typed u' := by
    intro u u' h1 h2 k l t g; rw [h1]; exact k l t (by rw [← h2]; exact g)
  cases op with
  | update l ok =>
    obtain ⟨w1, a, rc, e, d, ty, q, ac, _⟩ := lineUpdate_ok hE h f (by simpa [Op.valid] using hv) ok
    simp only [step, e, Except.map] at hs
    cases hs; exact same ty q hT
  | timer ok =>
    simp only [step] at hs
    by_cases ht' : w.timer = true
    · rw [if_pos ht'] at hs
      have hh : (w.fsm && !w.conn) = true := by rw [← f.timer]; exact ht'
      simp only [Bool.and_eq_true, Bool.not_eq_true'] at hh
      have hi : Inv { w with timer := false } := ⟨⟨h.used, h.nodup, h.mem, h.inj, h.lt⟩, h.reg⟩
      obtain ⟨w2, a, e, U⟩ := connect_ok hE hi hh.2 (f.cli.trans hh.2) hh.1 (f.disc hh.2) ok
      rw [e] at hs; cases hs
      exact same U.ty U.q hT
    · rw [if_neg ht'] at hs; cases hs; exact hT
  | config l t ty =>
    have hs : config w l t ty = (w', a) := Except.ok.inj hs
    simp only [config] at hs
    split at hs <;> cases hs
    · exact hT
    · intro x y
      rw [setTs_ts]; split
      · intro n; exact absurd rfl n
      · exact hT x y
  | event l t e =>
    simp only [step] at hs
    split at hs
    · obtain ⟨w2, b, g, v⟩ := fdCb_ok h f l t { e with wr := e.wr && (w.ts l t).wr }
      have := (fdCb_keeps h f hT hs).2
      rw [g] at hs; cases hs
      exact ev_typed v hT this
    · cases hs; exact hT
  | send l t m =>
    obtain ⟨_, _, ty, q⟩ := send_ok h f l t m hs
    simp only [step, send] at hs
    split at hs
    · rename_i ht
      intro x y g
      rw [ty]
      by_cases c : x = l ∧ y = t
      · rw [c.1, c.2]; exact ht
      · rw [q, sent, if_neg (fun g => c ⟨g.1.symm, g.2.symm⟩)] at g
        simp only [sent, List.append_nil] at g
        exact hT x y g
    · cases hs
  | want l t =>
    cases hs
    exact same (wantWrite_ok h f l t).ty (wantWrite_keeps w l t).2.1 hT
  | lapdTx l t d n =>
    simp only [step] at hs
    split at hs
    · obtain ⟨w1, b, e1, _, s, _⟩ := connLost_ok h f
      simp only [lapdTx, e1, bind, Except.bind] at hs
      split at hs
      · cases hs; exact hT
      · split at hs
        · cases hs; exact same s.ty s.q hT
        · cases hs; exact hT
    · cases hs; exact hT

theorem run_typed {E : Env} (hE : Complete E) : ∀ (ops : List Op) {w : W}, Inv w → Fsm w → Typed w → (∀ op ∈ ops, op.valid = true) →
    ∀ {w' : W} {a : List Act}, run E w ops = .ok (w', a) → Inv w' ∧ Fsm w' ∧ Typed w' := by
  intro ops
  induction ops with
  | nil => intro w h f t _ w' a hr; cases hr; exact ⟨h, f, t⟩
  | cons op ops ih =>
    intro w h f t hv w' a hr
    obtain ⟨w1, a1, a2, e1, e2, rfl⟩ := run_cons hr
    have hv1 := hv op (List.mem_cons_self ..)
    have t1 := step_typed hE h f t hv1 e1
    rcases step_did hE h f hv1 with ⟨w2, b, g, d⟩ | ⟨_, _, _, _, g⟩
    · rw [g] at e1; cases e1
      exact ih d.inv d.fsm t1 (fun o m => hv o (List.mem_cons_of_mem _ m)) e2
    · rw [g] at e1; cases e1

theorem run_keeps {E : Env} (hE : Complete E) : ∀ (ops : List Op) {w : W}, Inv w → Fsm w → Typed w → (∀ op ∈ ops, op.valid = true) →
    (∀ l ok, Op.update l ok ∉ ops) → (∀ ok, Op.timer ok ∉ ops) →
    ∀ {w' : W} {a : List Act}, run E w ops = .ok (w', a) → w'.conn = true → w.conn = true ∧ (Pend w → Pend w') := by
  intro ops
  induction ops with
  | nil => intro w _ _ _ _ _ _ w' a hr hc; cases hr; exact ⟨hc, fun p => p⟩
  | cons op ops ih =>
    intro w h f t hv n1 n2 w' a hr hc
    obtain ⟨w1, a1, a2, e1, e2, rfl⟩ := run_cons hr
    have hv1 := hv op (List.mem_cons_self ..)
    have t1 := step_typed hE h f t hv1 e1
    have k := step_keeps hE h f t hv1 (fun l ok e => n1 l ok (by rw [← e]; exact List.mem_cons_self ..)) (fun ok e => n2 ok (by rw [← e]; exact List.mem_cons_self ..)) e1
    rcases step_did hE h f hv1 with ⟨w2, b, g, d⟩ | ⟨_, _, _, _, g⟩
    · rw [g] at e1; cases e1
      obtain ⟨c1, p1⟩ := ih d.inv d.fsm t1 (fun o m => hv o (List.mem_cons_of_mem _ m)) (fun l ok m => n1 l ok (List.mem_cons_of_mem _ m)) (fun ok m => n2 ok (List.mem_cons_of_mem _ m)) e2 hc
      exact ⟨k.conn c1, fun p => p1 (k.pend (k.conn c1) p)⟩
    · rw [g] at e1; cases e1

end Verif.E1d
