import Verif.Proof.E1d
/-! What the callbacks of the osmo-e1d driver do, by time slot -/
set_option maxRecDepth 10000
namespace Verif.E1d

/-- a reachable state -/
theorem reach {E : Env} (hE : Complete E) {ops : List Op} (hv : ∀ op ∈ ops, op.valid = true) {w : W} {a : List Act} (hr : run E init ops = .ok (w, a)) :
    Inv w ∧ Fsm w ∧ Balanced (fun _ _ => none) a (openIn w) := by
  rcases run_did hE ops init_inv.1 init_inv.2 hv with ⟨w', a', e, d⟩ | e
  · rw [e] at hr; cases hr
    exact ⟨d.inv, d.fsm, d.bal⟩
  · rw [e] at hr; cases hr

theorem run_cons {E : Env} {w : W} {op : Op} {ops : List Op} {w' : W} {a : List Act} (h : run E w (op :: ops) = .ok (w', a)) :
    ∃ w1 a1 a2, step E w op = .ok (w1, a1) ∧ run E w1 ops = .ok (w', a2) ∧ a = a1 ++ a2 := by
  simp only [run, bind, Except.bind] at h
  cases hs : step E w op with
  | error e => rw [hs] at h; cases h
  | ok r =>
    obtain ⟨w1, a1⟩ := r
    rw [hs] at h
    simp only at h
    cases hr : run E w1 ops with
    | error e => rw [hr] at h; cases h
    | ok r =>
      obtain ⟨w2, a2⟩ := r
      rw [hr] at h
      cases h
      exact ⟨w1, a1, a2, rfl, hr, rfl⟩

theorem run_append {E : Env} : ∀ {o1 o2 : List Op} {w : W} {w' : W} {a : List Act}, run E w (o1 ++ o2) = .ok (w', a) →
    ∃ w1 a1 a2, run E w o1 = .ok (w1, a1) ∧ run E w1 o2 = .ok (w', a2) ∧ a = a1 ++ a2 := by
  intro o1
  induction o1 with
  | nil => intro o2 w w' a h; exact ⟨w, [], a, rfl, h, rfl⟩
  | cons op o1 ih =>
    intro o2 w w' a h
    obtain ⟨w1, a1, a2, e1, e2, rfl⟩ := run_cons (ops := o1 ++ o2) h
    obtain ⟨w2, b1, b2, f1, f2, rfl⟩ := ih e2
    exact ⟨w2, a1 ++ b1, b2, by simp only [run, e1, f1, bind, Except.bind], f2, by rw [List.append_assoc]⟩

/-- messages leave a queue only by being written, in their order -/
theorem run_fifo {E : Env} (hE : Complete E) (l t : Nat) : ∀ (ops : List Op) {w : W}, Inv w → Fsm w → (∀ op ∈ ops, op.valid = true) → Unchanged l t ops →
    (w.ts l t).ty = .raw ∨ (w.ts l t).ty = .hdlc → ∀ {w' : W} {a : List Act}, run E w ops = .ok (w', a) →
    (w.ts l t).q ++ sent l t ops = written l t a ++ (w'.ts l t).q ∧ (w'.ts l t).ty = (w.ts l t).ty := by
  intro ops
  induction ops with
  | nil => intro w h f _ _ _ w' a hr; cases hr; simp [sent, written]
  | cons op ops ih =>
    intro w h f hv hu ht w' a hr
    obtain ⟨w1, a1, a2, e1, e2, rfl⟩ := run_cons hr
    have hv1 := hv op (List.mem_cons_self ..)
    have hv2 : ∀ o ∈ ops, o.valid = true := fun o m => hv o (List.mem_cons_of_mem _ m)
    have hu2 : Unchanged l t ops := fun o m => hu o (List.mem_cons_of_mem _ m)
    have key : Inv w1 ∧ Fsm w1 ∧ (w1.ts l t).ty = (w.ts l t).ty ∧
        (w.ts l t).q ++ sent l t (op :: ops) = written l t a1 ++ ((w1.ts l t).q ++ sent l t ops) := by
      have other : (∀ l t ty, op ≠ .config l t ty) → (∀ l t m, op ≠ .send l t m) → sent l t (op :: ops) = sent l t ops →
          Inv w1 ∧ Fsm w1 ∧ (w1.ts l t).ty = (w.ts l t).ty ∧ (w.ts l t).q ++ sent l t (op :: ops) = written l t a1 ++ ((w1.ts l t).q ++ sent l t ops) := by
        intro hc hs e
        obtain ⟨w2, b, g, v⟩ := step_ev hE h f hv1 hc hs
        rw [g] at e1; cases e1
        refine ⟨v.did.inv, v.did.fsm, v.ty l t, ?_⟩
        rw [e, v.q l t ht, List.append_assoc]
      cases op with
      | config l' t' ty =>
        have e1 : config w l' t' ty = (w1, a1) := Except.ok.inj e1
        obtain ⟨d, hw, ho⟩ := config_ok h f l' t' ty
        rw [e1] at d hw ho
        have hne : ¬ (l = l' ∧ t = t') := by
          rintro ⟨rfl, rfl⟩
          exact hu _ (List.mem_cons_self ..) ty rfl
        have := ho l t hne
        refine ⟨d.inv, d.fsm, by rw [this], ?_⟩
        rw [hw l t, this]; rfl
      | send l' t' m =>
        obtain ⟨rfl, d, ty, q⟩ := send_ok h f l' t' m e1
        refine ⟨d.inv, d.fsm, ty l t, ?_⟩
        rw [q l t]
        simp only [sent, written, List.nil_append]
        split <;> simp
      | update l ok => exact other (by intros; intro g; cases g) (by intros; intro g; cases g) rfl
      | timer ok => exact other (by intros; intro g; cases g) (by intros; intro g; cases g) rfl
      | event l t e => exact other (by intros; intro g; cases g) (by intros; intro g; cases g) rfl
      | want l t => exact other (by intros; intro g; cases g) (by intros; intro g; cases g) rfl
      | lapdTx l t d n => exact other (by intros; intro g; cases g) (by intros; intro g; cases g) rfl
    obtain ⟨hi, hf, ty, k⟩ := key
    obtain ⟨r1, r2⟩ := ih hi hf hv2 hu2 (by rw [ty]; exact ht) e2
    refine ⟨?_, r2.trans ty⟩
    rw [k, r1, written_append, List.append_assoc]

/-! ### Which time slot is concerned -/

/-- actions on one time slot only, but for closing -/
def On (l t : Nat) (a : List Act) : Prop :=
  ∀ x ∈ a, (∃ l' t', x = .closed l' t') ∨ (∃ d n, x = .write l t d n) ∨ (∃ d, x = .rx l t d) ∨ x = .leak l t ∨ (∃ d, x = .free l t d) ∨ ∃ d n, x = .lapd l t d n

theorem On.nil {l t : Nat} : On l t [] := by intro x g; cases g
theorem on_closed {l t : Nat} {a : List Act} (h : ∀ x ∈ a, ∃ l t, x = Act.closed l t) : On l t a := fun x g => .inl (h x g)
theorem On.append {l t : Nat} {a b : List Act} (h : On l t a) (g : On l t b) : On l t (a ++ b) := by
  intro x m; exact (List.mem_append.1 m).elim (h x) (g x)
theorem On.write {l t : Nat} {a : List Act} (h : On l t a) (d : List Byte) (n : Int) : On l t (.write l t d n :: a) := by
  intro x m; cases m with
  | head => exact .inr (.inl ⟨d, n, rfl⟩)
  | tail _ m => exact h x m
theorem On.rx {l t : Nat} {a : List Act} (h : On l t a) (d : List Byte) : On l t (.rx l t d :: a) := by
  intro x m; cases m with
  | head => exact .inr (.inr (.inl ⟨d, rfl⟩))
  | tail _ m => exact h x m
theorem On.leak {l t : Nat} {a : List Act} (h : On l t a) : On l t (.leak l t :: a) := by
  intro x m; cases m with
  | head => exact .inr (.inr (.inr (.inl rfl)))
  | tail _ m => exact h x m
theorem On.free {l t : Nat} {a : List Act} (h : On l t a) (d : List Byte) : On l t (.free l t d :: a) := by
  intro x m; cases m with
  | head => exact .inr (.inr (.inr (.inr (.inl ⟨d, rfl⟩))))
  | tail _ m => exact h x m
theorem On.lapd {l t : Nat} {a : List Act} (h : On l t a) (d : List Byte) (n : Option Int) : On l t (.lapd l t d n :: a) := by
  intro x m; cases m with
  | head => exact .inr (.inr (.inr (.inr (.inr ⟨d, n, rfl⟩))))
  | tail _ m => exact h x m

theorem received_append (l t : Nat) : ∀ (a b : List Act), received l t (a ++ b) = received l t a ++ received l t b := by
  intro a
  induction a with
  | nil => intro b; rfl
  | cons x a ih =>
    intro b
    cases x <;> simp only [List.cons_append, received, ih]
    split <;> simp

theorem received_onlyFds {a : List Act} (h : OnlyFds a) (l t : Nat) : received l t a = [] := by
  induction a with
  | nil => rfl
  | cons x a ih =>
    have ih := ih (fun y g => h y (List.mem_cons_of_mem _ g))
    rcases h x (List.mem_cons_self ..) with ⟨l', t', rfl⟩ | ⟨l', t', m, rfl⟩ <;> exact ih

theorem On.other {l t : Nat} {a : List Act} (h : On l t a) {l' t' : Nat} (hne : ¬ (l' = l ∧ t' = t)) : received l' t' a = [] ∧ written l' t' a = [] := by
  have hne' : ¬ (l = l' ∧ t = t') := fun g => hne ⟨g.1.symm, g.2.symm⟩
  induction a with
  | nil => exact ⟨rfl, rfl⟩
  | cons x a ih =>
    have ih := ih (fun y g => h y (List.mem_cons_of_mem _ g))
    rcases h x (List.mem_cons_self ..) with ⟨_, _, rfl⟩ | ⟨_, _, rfl⟩ | ⟨_, rfl⟩ | rfl | ⟨_, rfl⟩ | ⟨_, _, rfl⟩ <;>
      simp only [received, written, if_neg hne'] <;> exact ih

theorem evRead_on {w : W} (h : Inv w) (f : Fsm w) {l t : Nat} {e : Ev} {w' : W} {a : List Act} (hs : evRead w l t e = .ok (w', a)) : On l t a := by
  obtain ⟨w1, b, e1, _, _, _, _, _, _, ac⟩ := connLost_ok h f
  have ob : On l t b := on_closed ac
  simp only [evRead, signRead, trauRead, rawRead, hdlcRead, trauWrite, e1, bind, Except.bind] at hs
  repeat' split at hs
  all_goals first
    | (cases hs; done)
    | (cases hs; first | exact On.nil | exact ob | exact ob.leak | exact On.nil.leak | exact On.nil.rx _ | exact (ob.write _ _).rx _ | exact (On.nil.write _ _).rx _)
    | (rename_i hx; repeat' split at hx
       all_goals first | (cases hx; done) | (cases hx; cases hs; first | exact (ob.write _ _).rx _ | exact (On.nil.write _ _).rx _))

theorem evWrite_on {w : W} (h : Inv w) (f : Fsm w) {l t : Nat} {e : Ev} {w' : W} {a : List Act} (hs : evWrite w l t e = .ok (w', a)) : On l t a := by
  have key : ∀ (q : List (List Byte)) (w1 : W) (b : List Act), connLost (setTs w l t { w.ts l t with q := q }) = .ok (w1, b) → On l t b := by
    intro q w1 b g
    have k := did_keep h f l t { w.ts l t with q := q } rfl rfl
    obtain ⟨w2, b2, e2, _, _, _, _, _, _, ac⟩ := connLost_ok k.inv k.fsm
    rw [e2] at g; cases g
    exact on_closed ac
  simp only [evWrite, signWrite, rawWrite, hdlcWrite, bind, Except.bind] at hs
  repeat' split at hs
  all_goals first
    | (cases hs; done)
    | (cases hs; first | exact On.nil | exact (On.nil.free _).write _ _)
    | (cases hs
       rename_i hx
       exact ((key _ _ _ hx).append (On.nil.free _)).write _ _)

theorem fdCb_on {w : W} (h : Inv w) (f : Fsm w) {l t : Nat} {e : Ev} {w' : W} {a : List Act} (hs : fdCb w l t e = .ok (w', a)) : On l t a := by
  simp only [fdCb] at hs
  split at hs
  · obtain ⟨w1, a1, e1, v1⟩ := opt_ok h f e.rd (fun w => evRead w l t e) (evRead_ok h f l t e)
    obtain ⟨w2, b, e2, v2⟩ := opt_ok v1.did.inv v1.did.fsm e.wr (fun w => evWrite w l t e) (evWrite_ok v1.did.inv v1.did.fsm l t e)
    simp only [e1, e2, bind, Except.bind] at hs
    cases hs
    refine On.append ?_ ?_
    · simp only [opt] at e1; split at e1
      · exact evRead_on h f e1
      · cases e1; exact On.nil
    · simp only [opt] at e2; split at e2
      · exact evWrite_on v1.did.inv v1.did.fsm e2
      · cases e2; exact On.nil
  · cases hs; exact On.nil

theorem lapdTx_on {w : W} (h : Inv w) (f : Fsm w) {l t : Nat} {d : List Byte} {n : Int} {w' : W} {a : List Act} (hs : lapdTx w l t d n = .ok (w', a)) :
    ∀ x y, received x y a = [] ∧ written x y a = [] := by
  obtain ⟨w1, b, e1, _, _, _, _, _, _, ac⟩ := connLost_ok h f
  simp only [lapdTx, e1, bind, Except.bind] at hs
  intro x y
  repeat' split at hs
  all_goals cases hs
  · exact ⟨rfl, rfl⟩
  · exact ⟨received_onlyFds (onlyFds_closed ac) x y, written_onlyFds (onlyFds_closed ac) x y⟩
  · exact ⟨rfl, rfl⟩

/-! ### TRAU and I.460 -/

theorem trau_event {w : W} (h : Inv w) (f : Fsm w) {l t : Nat} (ht : (w.ts l t).ty = .trau) {e : Ev} {w' : W} {a : List Act} (hs : fdCb w l t e = .ok (w', a)) :
    (received l t a).length = (written l t a).length := by
  simp only [fdCb] at hs
  split at hs
  · obtain ⟨w1, a1, e1, v1⟩ := opt_ok h f e.rd (fun w => evRead w l t e) (evRead_ok h f l t e)
    have ht1 : (w1.ts l t).ty = .trau := (v1.ty l t).trans ht
    obtain ⟨w2, b, e2, v2⟩ := opt_ok v1.did.inv v1.did.fsm e.wr (fun w => evWrite w l t e) (evWrite_ok v1.did.inv v1.did.fsm l t e)
    simp only [e1, e2, bind, Except.bind] at hs
    cases hs
    have hb : b = [] := by
      simp only [opt, evWrite, ht1] at e2
      split at e2 <;> cases e2 <;> rfl
    subst hb
    rw [List.append_nil]
    obtain ⟨w3, c, e3, _, _, _, _, _, _, ac⟩ := connLost_ok h f
    have o := onlyFds_closed ac
    have fin : ∀ r1 : M (W × List Act), r1 = .ok (w1, a1) → (r1 = .ok (w, []) ∨ (∃ d w4 b, r1 = .ok (w4, .rx l t d :: b) ∧ ∃ m n c', b = .write l t m n :: c' ∧ OnlyFds c') ∨ (∃ w4 c', r1 = .ok (w4, .leak l t :: c') ∧ OnlyFds c')) →
        (received l t a1).length = (written l t a1).length := by
      rintro r1 rfl (g | ⟨d, w4, b, g, m, n, c', rfl, o'⟩ | ⟨w4, c', g, o'⟩) <;> cases g
      · rfl
      · simp [received, written, received_onlyFds o', written_onlyFds o']
      · simp [received, written, received_onlyFds o', written_onlyFds o']
    refine fin _ e1 ?_
    simp only [opt]
    split
    · simp only [evRead, ht, trauRead]
      split
      · exact .inr (.inr ⟨w3, c, by simp only [e3, bind, Except.bind], o⟩)
      · split
        · refine .inr (.inl ?_)
          by_cases hn : e.n ≤ 0
          · exact ⟨_, w3, _, by simp only [trauWrite, if_pos hn, e3, bind, Except.bind]; rfl, _, _, c, rfl, o⟩
          · exact ⟨_, w, _, by simp only [trauWrite, if_neg hn, bind, Except.bind]; rfl, _, _, [], rfl, by intro x g; cases g⟩
        · split
          · exact .inr (.inr ⟨w3, c, by simp only [e3, bind, Except.bind], o⟩)
          · exact .inr (.inr ⟨w, [], rfl, by intro x g; cases g⟩)
    · exact .inl rfl
  · cases hs; rfl

theorem i460_event {w : W} (h : Inv w) (f : Fsm w) {l t : Nat} (ht : (w.ts l t).ty = .i460) {e : Ev} {w' : W} {a : List Act} (hs : fdCb w l t e = .ok (w', a)) :
    a = [] ∧ w' = w := by
  simp only [fdCb, opt, evRead, ht, bind, Except.bind] at hs
  cases e.rd <;> cases e.wr <;> simp [evWrite, ht] at hs <;> (first | exact ⟨hs.2, hs.1.symm⟩ | (split at hs <;> cases hs <;> exact ⟨rfl, rfl⟩))

/-- a property of the actions on one time slot, for all histories in which it is not configured -/
theorem run_slot {E : Env} (hE : Complete E) (l t : Nat) (ty : Ty) (hty : ty ≠ .raw ∧ ty ≠ .hdlc) (P : List (List Byte) → List (List Byte) → Prop) (p0 : P [] [])
    (pa : ∀ r1 w1 r2 w2, P r1 w1 → P r2 w2 → P (r1 ++ r2) (w1 ++ w2))
    (pe : ∀ w e w' a, Inv w → Fsm w → (w.ts l t).ty = ty → fdCb w l t e = .ok (w', a) → P (received l t a) (written l t a)) :
    ∀ (ops : List Op) {w : W}, Inv w → Fsm w → (∀ op ∈ ops, op.valid = true) → Unchanged l t ops →
    (w.ts l t).ty = ty → ∀ {w' : W} {a : List Act}, run E w ops = .ok (w', a) → P (received l t a) (written l t a) ∧ (w'.ts l t).ty = ty := by
  intro ops
  induction ops with
  | nil => intro w h f _ _ ht w' a hr; cases hr; exact ⟨p0, ht⟩
  | cons op ops ih =>
    intro w h f hv hu ht w' a hr
    obtain ⟨w1, a1, a2, e1, e2, rfl⟩ := run_cons hr
    have hv1 := hv op (List.mem_cons_self ..)
    have key : Inv w1 ∧ Fsm w1 ∧ (w1.ts l t).ty = ty ∧ P (received l t a1) (written l t a1) := by
      cases op with
      | config l' t' ty' =>
        have e1 : config w l' t' ty' = (w1, a1) := Except.ok.inj e1
        obtain ⟨d, hw, ho⟩ := config_ok h f l' t' ty'
        have hr : received l t (config w l' t' ty').2 = [] := by
          simp only [config]
          split
          · rfl
          · have : ∀ (q : List (List Byte)), received l t (q.map (Act.free l' t')) = [] := by
              intro q
              induction q with
              | nil => rfl
              | cons m q ih => exact ih
            exact this _
        rw [e1] at d hw ho hr
        have hne : ¬ (l = l' ∧ t = t') := by
          rintro ⟨rfl, rfl⟩
          exact hu _ (List.mem_cons_self ..) ty' rfl
        refine ⟨d.inv, d.fsm, by rw [ho l t hne]; exact ht, ?_⟩
        rw [hw l t, hr]; exact p0
      | send l' t' m =>
        obtain ⟨rfl, d, ty, q⟩ := send_ok h f l' t' m e1
        exact ⟨d.inv, d.fsm, (ty l t).trans ht, p0⟩
      | update l' ok =>
        obtain ⟨w2, a, rc, e, d, ty, q, ac, _⟩ := lineUpdate_ok hE h f (by simpa [Op.valid] using hv1) ok
        simp only [step, e, Except.map] at e1
        cases e1
        refine ⟨d.inv, d.fsm, (ty l t).trans ht, ?_⟩
        rw [received_onlyFds ac, written_onlyFds ac]; exact p0
      | timer ok =>
        simp only [step] at e1
        by_cases ht' : w.timer = true
        · rw [if_pos ht'] at e1
          have hh : (w.fsm && !w.conn) = true := by rw [← f.timer]; exact ht'
          simp only [Bool.and_eq_true, Bool.not_eq_true'] at hh
          have hi : Inv { w with timer := false } := ⟨⟨h.used, h.nodup, h.mem, h.inj, h.lt⟩, h.reg⟩
          obtain ⟨w2, a, e, U⟩ := connect_ok hE hi hh.2 (f.cli.trans hh.2) hh.1 (f.disc hh.2) ok
          rw [e] at e1; cases e1
          refine ⟨U.did.inv, U.did.fsm, (U.ty l t).trans ht, ?_⟩
          rw [received_onlyFds U.acts, written_onlyFds U.acts]; exact p0
        · rw [if_neg ht'] at e1; cases e1; exact ⟨h, f, ht, p0⟩
      | event l' t' e =>
        simp only [step] at e1
        split at e1
        · obtain ⟨w2, b, g, v⟩ := fdCb_ok h f l' t' { e with wr := e.wr && (w.ts l' t').wr }
          have e1' := e1
          rw [g] at e1; cases e1
          refine ⟨v.did.inv, v.did.fsm, (v.ty l t).trans ht, ?_⟩
          by_cases c : l = l' ∧ t = t'
          · obtain ⟨rfl, rfl⟩ := c
            exact pe _ _ _ _ h f ht e1'
          · have := (fdCb_on h f e1').other c
            rw [this.1, this.2]; exact p0
        · cases e1; exact ⟨h, f, ht, p0⟩
      | want l' t' =>
        have v := wantWrite_ok h f l' t'
        cases e1
        exact ⟨v.did.inv, v.did.fsm, (v.ty l t).trans ht, p0⟩
      | lapdTx l' t' d n =>
        simp only [step] at e1
        split at e1
        · obtain ⟨w2, b, g, v⟩ := lapdTx_ok h f l' t' d n
          have := lapdTx_on h f e1 l t
          rw [g] at e1; cases e1
          refine ⟨v.did.inv, v.did.fsm, (v.ty l t).trans ht, ?_⟩
          rw [this.1, this.2]; exact p0
        · cases e1; exact ⟨h, f, ht, p0⟩
    obtain ⟨hi, hf, hty', k⟩ := key
    obtain ⟨r1, r2⟩ := ih hi hf (fun o m => hv o (List.mem_cons_of_mem _ m)) (fun o m => hu o (List.mem_cons_of_mem _ m)) hty' e2
    refine ⟨?_, r2⟩
    rw [received_append, written_append]
    exact pa _ _ _ _ k r1

end Verif.E1d
