import Verif.Proof.MisdnRun
set_option maxRecDepth 10000
namespace Verif.Misdn

/-! ### Links of a signalling time slot with LAPD in the kernel -/

theorem setChan_none : ∀ (ls : List Link) (tei sapi c : Nat), findLink ls tei sapi = none → setChan ls tei sapi c = ls := by
  intro ls tei sapi c
  induction ls with
  | nil => intro _; rfl
  | cons k ls ih =>
    intro h
    unfold findLink at h
    rw [List.find?_cons] at h
    by_cases g : k.tei = tei ∧ k.sapi = sapi
    · rw [decide_eq_true g] at h; cases h
    · rw [decide_eq_false g] at h
      simp only [setChan, if_neg g]
      rw [ih h]

theorem findLink_cons (k : Link) (ls : List Link) (tei sapi : Nat) : findLink (k :: ls) tei sapi = if k.tei = tei ∧ k.sapi = sapi then some k else findLink ls tei sapi := by
  unfold findLink
  rw [List.find?_cons]
  by_cases g : k.tei = tei ∧ k.sapi = sapi
  · rw [decide_eq_true g, if_pos g]
  · rw [decide_eq_false g, if_neg g]

theorem findLink_set : ∀ (ls : List Link) (tei sapi c tei' sapi' : Nat), findLink (setChan ls tei sapi c) tei' sapi' =
    if tei' = tei ∧ sapi' = sapi then (findLink ls tei sapi).map (fun k => { k with chan := c }) else findLink ls tei' sapi' := by
  intro ls tei sapi c tei' sapi'
  induction ls with
  | nil => simp [setChan, findLink]
  | cons k ls ih =>
    simp only [setChan]
    by_cases g : k.tei = tei ∧ k.sapi = sapi
    · rw [if_pos g, findLink_cons, findLink_cons, findLink_cons, if_pos g]
      by_cases g2 : tei' = tei ∧ sapi' = sapi
      · rw [if_pos g2, if_pos ⟨g.1.trans g2.1.symm, g.2.trans g2.2.symm⟩]; rfl
      · have g3 : ¬ (k.tei = tei' ∧ k.sapi = sapi') := fun e => g2 ⟨e.1.symm.trans g.1, e.2.symm.trans g.2⟩
        rw [if_neg g2, if_neg g3, if_neg g3]
    · rw [if_neg g, findLink_cons, findLink_cons, findLink_cons, if_neg g, ih]
      by_cases g2 : tei' = tei ∧ sapi' = sapi
      · have g3 : ¬ (k.tei = tei' ∧ k.sapi = sapi') := fun e => g ⟨e.1.trans g2.1, e.2.trans g2.2⟩
        rw [if_pos g2, if_neg g3]; simp only [if_pos g2]
      · rw [if_neg g2]; simp only [if_neg g2]

/-- what an event does to the links -/
def linksAfter (e : Ev) (ls : List Link) : List Link := if e.rd = true ∧ e.addr = true ∧ assigns e.data = true then setChan ls e.tei e.sapi e.chan else ls

theorem signRead_links {ul : Bool} {x x' : Line} {s s' : Slot} {e : Ev} {a : List Act} (hr : e.rd = true) (h : signRead ul x s e = .ok (x', s', a)) : s'.links = linksAfter e s.links := by
  unfold signRead at h
  unfold linksAfter
  cases hd : e.data with
  | none => rw [hd] at h; cases h; rw [if_neg (fun g => by cases g.2.2)]
  | some d =>
    rw [hd] at h
    simp only [Option.map_some] at h
    rw [rd32_take _ _ _ (by decide)] at h
    by_cases ha : e.addr = false
    · rw [if_pos ha] at h; cases h; rw [if_neg (fun g => by rw [ha] at g; cases g.2.1)]
    · have ha' : e.addr = true := by cases hx : e.addr <;> simp [hx] at ha ⊢
      rw [if_neg ha] at h
      by_cases h1 : rd32 d 0 = DL_INFORMATION_IND
      · rw [if_pos h1] at h
        cases h
        rw [if_pos ⟨hr, ha', by simp only [assigns]; exact decide_eq_true (.inl h1)⟩]
      · rw [if_neg h1] at h
        by_cases h2 : rd32 d 0 = DL_ESTABLISH_IND
        · rw [if_pos h2] at h
          rw [if_pos ⟨hr, ha', by simp only [assigns]; exact decide_eq_true (.inr h2)⟩]
          unfold dlEst at h
          split at h
          · rename_i k; cases h; exact (setChan_none _ _ _ _ k).symm
          · cases h; rfl
        · rw [if_neg h2] at h
          have hn : ¬ (e.rd = true ∧ e.addr = true ∧ assigns (some d) = true) := by
            intro g
            have := of_decide_eq_true g.2.2
            rcases this with g | g
            · exact h1 g
            · exact h2 g
          rw [if_neg hn]
          split at h
          · unfold dlRel at h; split at h <;> cases h <;> rfl
          · split at h
            · unfold dlData at h
              split at h
              · cases h
              · split at h
                · cases h; rfl
                · split at h <;> cases h <;> rfl
            · split at h
              · unfold phData at h
                split at h
                · cases h; rfl
                · split at h
                  · cases h
                  · split at h
                    · cases h; rfl
                    · cases h
              · split at h
                · cases h; rfl
                · cases h; rfl

theorem evWrite_links {ul b : Bool} {s s' : Slot} {e : Ev} {a : List Act} (h : optW b s (fun s => evWrite ul s e) = .ok (s', a)) : s'.links = s.links := by
  unfold optW at h
  split at h
  · simp only [evWrite] at h
    have hb : ∀ f, bWrite f s e = .ok (s', a) → s'.links = s.links := by
      intro f h
      unfold bWrite at h
      split at h
      · cases h; rfl
      · split at h
        · cases h; rfl
        · rename_i m q _
          cases hp : push { m with d := m.d.map f } (head PH_DATA_REQ 0) with
          | error f => rw [hp] at h; cases h
          | ok d => rw [hp] at h; cases h; rfl
    cases ht : s.ty <;> simp only [ht] at h
    case sign =>
      unfold signWrite at h
      split at h
      · cases h; rfl
      · rename_i m q _
        split at h
        · split at h
          · cases h; rfl
          · cases h
        · cases hp : push m (head DL_DATA_REQ 0) with
          | error f => rw [hp] at h; cases h
          | ok d => rw [hp] at h; cases h; rfl
    case raw => exact hb _ h
    case hdlc => exact hb _ h
    all_goals (cases h; rfl)
  · cases h; rfl

theorem fdCb_links {ul : Bool} {x x' : Line} {s s' : Slot} {e : Ev} {a : List Act} (ht : s.ty = .sign) (h : fdCb ul x s e = .ok (x', s', a)) : s'.links = linksAfter e s.links := by
  obtain ⟨s1, a1, a2, h1, h2, rfl⟩ := fdCb_inv h
  rw [evWrite_links h2]
  unfold optR at h1
  by_cases hr : e.rd = true
  · rw [if_pos hr] at h1
    simp only [evRead, ht] at h1
    exact signRead_links hr h1
  · rw [if_neg hr] at h1; cases h1
    unfold linksAfter; rw [if_neg (fun g => hr g.1)]

/-- what an operation does to the channel of a link that exists -/
theorem step_told {E : Env} (hE : NotStdin E) (hR : Errors E) {w : W} (h : RInv w) {l t : Nat} (h1 : 1 ≤ t) (ht : (w.s l t).ty = .sign) (hc : (w.s l t).cur = (w.s l t).ty) (hr : (w.s l t).reg = true)
    {op : Op} (hu : ∀ ty, op ≠ .config l t ty) {w' : W} {a : Acts} (hs : step E w op = .ok (w', a)) {tei sapi c : Nat} (hf : (findLink (w.s l t).links tei sapi).map (·.chan) = some c) :
    (findLink (w'.s l t).links tei sapi).map (·.chan) = some (told l t tei sapi c [op]) := by
  have key : ∀ {l' t' : Nat} {s : Slot} {x : Line}, (l' = l ∧ t' = t → s.links = (w.s l' t').links) → (findLink ((setL (setS w l' t' s) l' x).s l t).links tei sapi).map (·.chan) = some c := by
    intro l' t' s x k
    show (findLink ((setS w l' t' s).s l t).links tei sapi).map (·.chan) = some c
    by_cases g : l' = l ∧ t' = t
    · obtain ⟨rfl, rfl⟩ := g; rw [setS_self, k ⟨rfl, rfl⟩]; exact hf
    · rw [setS_other _ (fun e => g ⟨e.1.symm, e.2.symm⟩)]; exact hf
  cases op with
  | port l' p => cases hs; exact hf
  | config l' t' ty =>
    obtain ⟨s, b, e, rfl, rfl⟩ := onSlot_inv hs
    rw [← setL_same]
    exact key (by rintro ⟨rfl, rfl⟩; exact absurd rfl (hu ty))
  | addLink l' t' tei' sapi' =>
    obtain ⟨s, b, e, rfl, rfl⟩ := onSlot_inv hs
    cases e
    by_cases g : l' = l ∧ t' = t
    · obtain ⟨rfl, rfl⟩ := g
      rw [setS_self]
      unfold addLink
      rw [if_pos ht]
      show (findLink ((w.s l' t').links ++ [_]) tei sapi).map (·.chan) = some c
      unfold findLink at hf ⊢
      rw [List.find?_append]
      cases hk : (w.s l' t').links.find? (fun k => decide (k.tei = tei ∧ k.sapi = sapi)) with
      | none => rw [hk] at hf; cases hf
      | some k => rw [hk] at hf; exact hf
    · rw [← setL_same]; exact key (fun e => absurd e g)
  | update l' =>
    cases hs
    obtain ⟨k1, _⟩ := (lineUpdate_ok hE h.inv l' hR).same l t h1 hc
    rw [k1]; exact hf
  | event l' t' e =>
    simp only [step] at hs
    by_cases g : l' = l ∧ t' = t
    · obtain ⟨rfl, rfl⟩ := g
      rw [if_pos hr] at hs
      split at hs
      · cases hs
      · obtain ⟨x', s, b, e', rfl, rfl⟩ := onBoth_inv hs
        have v := fdCb_links ht e'
        show (findLink ((setS w l' t' s).s l' t').links tei sapi).map (·.chan) = _
        rw [setS_self, v]
        simp only [told, true_and]
        unfold linksAfter
        simp only []
        by_cases q : e.rd = true ∧ e.addr = true ∧ assigns e.data = true
        · rw [if_pos q, findLink_set]
          by_cases q2 : tei = e.tei ∧ sapi = e.sapi
          · rw [if_pos q2, if_pos ⟨q.1, q.2.1, q2.1.symm, q2.2.symm, q.2.2⟩, ← q2.1, ← q2.2]
            cases hk : findLink (w.s l' t').links tei sapi with
            | none => rw [hk] at hf; cases hf
            | some k => rfl
          · rw [if_neg q2, if_neg (fun z => q2 ⟨z.2.2.1.symm, z.2.2.2.1.symm⟩)]; exact hf
        · rw [if_neg q, if_neg (fun z => q ⟨z.1, z.2.1, z.2.2.2.2⟩)]; exact hf
    · have hn : told l t tei sapi c [Op.event l' t' e] = c := by
        simp only [told]; rw [if_neg (fun z => g ⟨z.1, z.2.1⟩)]
      rw [hn]
      split at hs
      · split at hs
        · cases hs
        · obtain ⟨x', s, b, e', rfl, rfl⟩ := onBoth_inv hs
          exact key (fun z => absurd z g)
      · cases hs; exact hf
  | send l' t' m =>
    obtain ⟨s, b, e, rfl, rfl⟩ := onSlot_inv hs
    obtain ⟨rfl, ⟨wr, rfl⟩, _⟩ := send_eq e
    rw [← setL_same]
    exact key (fun _ => rfl)
  | timeout l' t' =>
    simp only [step] at hs
    split at hs
    · split at hs
      · cases hs
      · obtain ⟨s, b, e', rfl, rfl⟩ := onSlot_inv hs
        cases e'
        rw [← setL_same, timeout_eq]
        exact key (fun _ => rfl)
    · cases hs; exact hf
  | lapdTx l' t' m n =>
    simp only [step] at hs
    split at hs
    · split at hs
      · cases hs
      · obtain ⟨s, b, e', rfl, rfl⟩ := onSlot_inv hs
        obtain ⟨rfl, d, rfl⟩ := lapdTx_inv e'
        rw [← setL_same]
        exact key (fun _ => rfl)
    · cases hs; exact hf
  | sa l' b n => simp only [step] at hs; split at hs <;> cases hs <;> exact hf
  | release l' => cases hs; exact hf

theorem told_cons (l t tei sapi c : Nat) (op : Op) (ops : List Op) : told l t tei sapi c (op :: ops) = told l t tei sapi (told l t tei sapi c [op]) ops := by
  cases op <;> simp only [told]
  split <;> rfl

theorem run_told {E : Env} (hE : NotStdin E) (hR : Errors E) {l t : Nat} (h1 : 1 ≤ t) : ∀ (ops : List Op) {w w' : W} {a : Acts}, RInv w → Sane ops → Unchanged l t ops → (w.s l t).ty = .sign →
    (w.s l t).cur = (w.s l t).ty → (w.s l t).reg = true → run E w ops = .ok (w', a) → ∀ {tei sapi c : Nat}, (findLink (w.s l t).links tei sapi).map (·.chan) = some c →
    (findLink (w'.s l t).links tei sapi).map (·.chan) = some (told l t tei sapi c ops) := by
  intro ops
  induction ops with
  | nil => intro w w' a _ _ _ _ _ _ hs _ _ _ hf; cases hs; exact hf
  | cons op ops ih =>
    intro w w' a h ho hu ht hc hr hs tei sapi c hf
    obtain ⟨w1, a1, a2, e1, e2, rfl⟩ := run_cons hs
    have k1 := step_ok hE hR h (ho op (List.mem_cons_self ..)) e1
    have q1 := step_cur hE hR h h1 hc (hu op (List.mem_cons_self ..)) e1
    have t1 := step_told hE hR h h1 ht hc hr (hu op (List.mem_cons_self ..)) e1 hf
    rw [told_cons]
    exact ih k1.inv (fun o m => ho o (List.mem_cons_of_mem _ m)) (fun o m => hu o (List.mem_cons_of_mem _ m)) (by rw [q1.2.1]; exact ht) q1.1 (by rw [q1.2.2.1]; exact hr) e2 t1

end Verif.Misdn
