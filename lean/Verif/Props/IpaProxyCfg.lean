import Verif.Props.IpaProxy
import Verif.IpaProxyCfg
/-!
# C164: the configuration of the proxy, written and read
-/
set_option maxRecDepth 10000
namespace Verif.IpaProxy

/-- all names given to instances have at most 15 octets -/
def ShortNames (ops : List Op) : Prop := ∀ n b, Op.instAdd n b ∈ ops → n.length ≤ 15

/-- what does not change about an instance -/
def key (i : Inst) : Nat × List Byte × Bool := (i.id, i.name, i.bind)

structure Good (w : W) : Prop where
  inv : InvR w
  full : Full w
  idn : (w.insts.map Inst.id).Nodup
  nmn : (w.insts.map Inst.name).Nodup
  len : ∀ i ∈ w.insts, i.name.length ≤ 15
  bs : ∀ x ∈ w.shs, ∀ i ∈ w.insts, i.id = x.src → i.bind = true
  bd : ∀ x ∈ w.shs, ∀ i ∈ w.insts, i.id = x.dst → i.bind = false

theorem nameEq_short {a b : List Byte} (ha : a.length ≤ 15) (hb : b.length ≤ 15) : nameEq a b = true ↔ a = b := by
  simp only [nameEq, NAME]
  rw [List.take_of_length_le (by omega), List.take_of_length_le (by omega)]
  simp

theorem map_inj {α β : Type} {f : α → β} {l : List α} (hn : (l.map f).Nodup) {a b : α} (ha : a ∈ l) (hb : b ∈ l) (h : f a = f b) : a = b := by
  induction l with
  | nil => cases ha
  | cons x l ih =>
    rw [List.map_cons, List.nodup_cons] at hn
    rcases List.mem_cons.1 ha with ha | ha <;> rcases List.mem_cons.1 hb with hb | hb
    · rw [ha, hb]
    · exact absurd (List.mem_map.2 ⟨b, hb, by rw [← h, ha]⟩) hn.1
    · exact absurd (List.mem_map.2 ⟨a, ha, by rw [h, hb]⟩) hn.1
    · exact ih hn.2 ha hb

theorem refInst_key (w : W) (i : Nat) (k : Int) : (refInst w i k).insts.map key = w.insts.map key := by
  simp only [refInst, List.map_map]
  apply List.map_congr_left
  intro j _
  simp only [Function.comp]
  split <;> rfl

theorem of_key {l l' : List Inst} (h : l'.map key = l.map key) :
    l'.map Inst.id = l.map Inst.id ∧ l'.map Inst.name = l.map Inst.name ∧
    (∀ i ∈ l', ∃ j ∈ l, key j = key i) ∧ (∀ i ∈ l, ∃ j ∈ l', key j = key i) ∧
    l'.map (fun i => Line.inst i.name i.bind) = l.map (fun i => Line.inst i.name i.bind) := by
  refine ⟨?_, ?_, ?_, ?_, ?_⟩
  · have := congrArg (List.map (fun x : Nat × List Byte × Bool => x.1)) h
    simp only [List.map_map] at this; exact this
  · have := congrArg (List.map (fun x : Nat × List Byte × Bool => x.2.1)) h
    simp only [List.map_map] at this; exact this
  · intro i hi
    have : key i ∈ l.map key := h ▸ List.mem_map_of_mem hi
    exact (List.mem_map.1 this)
  · intro i hi
    have : key i ∈ l'.map key := h.symm ▸ List.mem_map_of_mem hi
    exact (List.mem_map.1 this)
  · have := congrArg (List.map (fun x : Nat × List Byte × Bool => Line.inst x.2.1 x.2.2)) h
    simp only [List.map_map] at this; exact this

/-- a step that leaves the instances and adds, if anything, a shared object between two of them of the right types -/
theorem Good.frame {w w' : W} (h : Good w) (hi : InvR w') (hf : Full w') (hk : w'.insts.map key = w.insts.map key)
    (hs : ∀ x ∈ w'.shs, (∃ y ∈ w.shs, y.src = x.src ∧ y.dst = x.dst) ∨
      ∃ a ∈ w.insts, ∃ b ∈ w.insts, a.bind = true ∧ b.bind = false ∧ x.src = a.id ∧ x.dst = b.id) : Good w' := by
  obtain ⟨k1, k2, k3, k4, -⟩ := of_key hk
  refine ⟨hi, hf, k1 ▸ h.idn, k2 ▸ h.nmn, ?_, ?_, ?_⟩
  · intro i hi
    obtain ⟨j, hj, e⟩ := k3 i hi
    have := h.len j hj
    rw [show j.name = i.name from congrArg (fun x => x.2.1) e] at this
    exact this
  · intro x hx i hi hix
    obtain ⟨j, hj, e⟩ := k3 i hi
    have e1 : j.id = i.id := congrArg (fun x => x.1) e
    have e2 : j.bind = i.bind := congrArg (fun x => x.2.2) e
    rw [← e2]
    rcases hs x hx with ⟨y, hy, a, b⟩ | ⟨a, ha, b, hb, a1, a2, a3, a4⟩
    · exact h.bs y hy j hj (by rw [e1, hix, a])
    · rw [map_inj h.idn hj ha (by rw [e1, hix, a3])]; exact a1
  · intro x hx i hi hix
    obtain ⟨j, hj, e⟩ := k3 i hi
    have e1 : j.id = i.id := congrArg (fun x => x.1) e
    have e2 : j.bind = i.bind := congrArg (fun x => x.2.2) e
    rw [← e2]
    rcases hs x hx with ⟨y, hy, a, b⟩ | ⟨a, ha, b, hb, a1, a2, a3, a4⟩
    · exact h.bd y hy j hj (by rw [e1, hix, b])
    · rw [map_inj h.idn hj hb (by rw [e1, hix, a4])]; exact a2

theorem addFinish_key (w : W) (a b : Nat) (s d : Byte) (x : Sh) (rid : Nat) :
    (addFinish w a b s d x rid).insts.map key = w.insts.map key := by
  simp only [addFinish]
  rw [refInst_key, refInst_key]
  rfl

theorem addFinish_shs {w : W} {a b : Nat} {s d : Byte} {x y : Sh} {rid : Nat} (h : y ∈ (addFinish w a b s d x rid).shs) :
    (y.src = a ∧ y.dst = b) ∨ y ∈ w.shs := by
  simp only [addFinish] at h
  rcases setSh_mem (w := w) h with ⟨rfl, -⟩ | ⟨h, -⟩
  · exact Or.inl ⟨rfl, rfl⟩
  · exact Or.inr h

theorem instAdd_good {w : W} (h : Good w) {n : List Byte} (hn : n.length ≤ 15) (b : Bool) : Good (instAdd w n b).1 := by
  have hst : step w (.instAdd n b) = .ok (instAdd w n b).1 := rfl
  obtain ⟨i1, i2⟩ := step_inv h.inv h.full hst
  revert i1 i2
  simp only [instAdd]
  split
  · intro _ _; exact h
  · rename_i hc
    intro i1 i2
    have htn : n.take (NAME - 1) = n := List.take_of_length_le (by simpa [NAME] using hn)
    have hne : ∀ i ∈ w.insts, i.name ≠ n := by
      intro i hi e
      apply hc
      rw [List.any_eq_true]
      exact ⟨i, hi, (nameEq_short (h.len i hi) hn).2 e⟩
    have hfr : ∀ i ∈ w.insts, i.id ≠ w.next := fun i hi e => by have := h.inv.li i hi; omega
    refine ⟨i1, i2, ?_, ?_, ?_, ?_, ?_⟩
    · simp only [List.map_append, List.map_cons, List.map_nil]
      rw [List.nodup_append]
      refine ⟨h.idn, by simp, ?_⟩
      intro a ha b hb
      obtain ⟨i, hi, rfl⟩ := List.mem_map.1 ha
      rw [List.mem_singleton.1 hb]
      exact hfr i hi
    · simp only [List.map_append, List.map_cons, List.map_nil, htn]
      rw [List.nodup_append]
      refine ⟨h.nmn, by simp, ?_⟩
      intro a ha b hb
      obtain ⟨i, hi, rfl⟩ := List.mem_map.1 ha
      rw [List.mem_singleton.1 hb]
      exact hne i hi
    · intro i hi
      rcases List.mem_append.1 hi with hi | hi
      · exact h.len i hi
      · rw [List.mem_singleton.1 hi]; simp only [htn]; exact hn
    · intro x hx i hi hix
      rcases List.mem_append.1 hi with hi | hi
      · exact h.bs x hx i hi hix
      · rw [List.mem_singleton.1 hi] at hix
        obtain ⟨⟨j, hj, e⟩, -⟩ := h.inv.ex x hx
        have := h.inv.li j hj
        simp only at hix; omega
    · intro x hx i hi hix
      rcases List.mem_append.1 hi with hi | hi
      · exact h.bd x hx i hi hix
      · rw [List.mem_singleton.1 hi] at hix
        obtain ⟨-, ⟨j, hj, e⟩⟩ := h.inv.ex x hx
        have := h.inv.li j hj
        simp only at hix; omega

theorem step_good {w w' : W} {op : Op} (h : Good w) (hn : ∀ n b, op = .instAdd n b → n.length ≤ 15) (hs : step w op = .ok w') : Good w' := by
  obtain ⟨i1, i2⟩ := step_inv h.inv h.full hs
  cases op with
  | instAdd n b =>
    have := Except.ok.inj hs
    rw [← this]
    exact instAdd_good h (hn n b rfl) b
  | instDel n =>
    simp only [step, instDel] at hs
    cases hf : w.insts.find? (fun i => nameEq i.name n) with
    | none => rw [hf] at hs; cases hs
    | some j =>
      rw [hf] at hs
      simp only at hs
      split at hs
      · have := Except.ok.inj hs; rw [← this]; exact h
      · have := Except.ok.inj hs
        subst this
        refine ⟨i1, i2, ?_, ?_, ?_, ?_, ?_⟩
        · exact List.Nodup.sublist (List.Sublist.map _ List.filter_sublist) h.idn
        · exact List.Nodup.sublist (List.Sublist.map _ List.filter_sublist) h.nmn
        · intro i hi; exact h.len i (List.mem_filter.1 hi).1
        · intro x hx i hi; exact h.bs x hx i (List.mem_filter.1 hi).1
        · intro x hx i hi; exact h.bd x hx i (List.mem_filter.1 hi).1
  | routeAdd sn s dn d o =>
    have := Except.ok.inj hs
    subst this
    revert i1 i2
    simp only [routeAdd]
    split
    · intro _ _; exact h
    · rename_i a b hab
      obtain ⟨ha, hb, -, -, ha1, hb1⟩ := args_mem hab
      split
      · rename_i r x hfr
        split
        · intro _ _; exact h
        · intro i1 i2
          refine h.frame i1 i2 (addFinish_key _ _ _ _ _ _ _) ?_
          intro y hy
          rcases addFinish_shs hy with ⟨e1, e2⟩ | hy
          · exact Or.inr ⟨a, ha, b, hb, ha1, hb1, e1, e2⟩
          · exact Or.inl ⟨y, hy, rfl, rfl⟩
      · split
        · intro i1 i2
          refine h.frame i1 i2 (addFinish_key _ _ _ _ _ _ _) ?_
          intro y hy
          rcases addFinish_shs hy with ⟨e1, e2⟩ | hy
          · exact Or.inr ⟨a, ha, b, hb, ha1, hb1, e1, e2⟩
          · rcases List.mem_append.1 hy with hy | hy
            · exact Or.inl ⟨y, hy, rfl, rfl⟩
            · rw [List.mem_singleton.1 hy]
              exact Or.inr ⟨a, ha, b, hb, ha1, hb1, rfl, rfl⟩
        · intro _ _; exact h
  | routeDel sn s dn d =>
    simp only [step, routeDel] at hs
    cases hab : args w sn s dn d with
    | none => rw [hab] at hs; have := Except.ok.inj hs; rw [← this]; exact h
    | some ab =>
      obtain ⟨a, b⟩ := ab
      rw [hab] at hs
      simp only at hs
      cases hr : theRoute w a.id b.id (BitVec.ofNat 8 s) (BitVec.ofNat 8 d) with
      | none => rw [hr] at hs; have := Except.ok.inj hs; rw [← this]; exact h
      | some rx =>
        obtain ⟨r, x⟩ := rx
        rw [hr] at hs
        simp only at hs
        obtain ⟨t1, t2, -⟩ := theRoute_some hr
        obtain ⟨t3, t4⟩ := sh_some t2
        split at hs
        · cases hs
        · have := Except.ok.inj hs
          subst this
          refine h.frame i1 i2 ?_ ?_
          · rw [refInst_key, refInst_key]; rfl
          · intro y hy
            rcases setSh_mem (w := { w with routes := w.routes.filter (fun q => q.id ≠ r.id) }) hy with ⟨rfl, -⟩ | ⟨hy, -⟩
            · exact Or.inl ⟨x, t3, rfl, rfl⟩
            · exact Or.inl ⟨y, hy, rfl, rfl⟩
  | accept r =>
    simp only [step, accept] at hs
    cases hr : routeSh w r with
    | error e => rw [hr] at hs; cases hs
    | ok x =>
      rw [hr] at hs
      have := Except.ok.inj hs
      subst this
      exact h.frame i1 i2 rfl (fun x hx => Or.inl ⟨x, hx, rfl, rfl⟩)
  | srcClosed c =>
    have := Except.ok.inj hs
    subst this
    exact h.frame i1 i2 rfl (fun x hx => Or.inl ⟨x, hx, rfl, rfl⟩)

theorem init_good : Good init := by
  obtain ⟨h1, h2⟩ := init_inv
  refine ⟨h1, h2, ?_, ?_, ?_, ?_, ?_⟩ <;> simp [init]

theorem run_good {w w' : W} {ops : List Op} (h : Good w) (hn : ShortNames ops) (hr : run w ops = .ok w') : Good w' := by
  induction ops generalizing w with
  | nil => rw [← Except.ok.inj hr]; exact h
  | cons op ops ih =>
    simp only [run] at hr
    cases hs : step w op with
    | error e => rw [hs] at hr; cases hr
    | ok w1 =>
      rw [hs] at hr
      exact ih (step_good h (fun n b e => hn n b (by rw [e]; exact List.mem_cons_self)) hs) (fun n b hm => hn n b (List.mem_cons_of_mem _ hm)) hr

/-! ## Writing -/

theorem find_id {w : W} (h : Good w) {i : Inst} (hi : i ∈ w.insts) : w.insts.find? (fun j => decide (j.id = i.id)) = some i := by
  cases hf : w.insts.find? (fun j => decide (j.id = i.id)) with
  | none => exact absurd (List.find?_eq_none.1 hf i hi) (by simp)
  | some j =>
    have h1 := List.mem_of_find?_eq_some hf
    have h2 : j.id = i.id := by simpa using List.find?_some hf
    rw [map_inj h.idn h1 hi h2]

theorem instName_ok {w : W} (h : Good w) {i : Inst} (hi : i ∈ w.insts) : instName w i.id = .ok i.name := by
  simp only [instName, find_id h hi]

/-- the line of a route between two instances -/
theorem routeLine_ok {w : W} (h : Good w) {r : Route} (hr : r ∈ w.routes) :
    ∃ x ∈ w.shs, ∃ a ∈ w.insts, ∃ b ∈ w.insts, x.id = r.sh ∧ x.src = a.id ∧ x.dst = b.id ∧ a.bind = true ∧ b.bind = false ∧
      routeLine w r = .ok (.route a.name r.s b.name r.d) := by
  obtain ⟨x, hx, e⟩ := h.inv.hsh r hr
  obtain ⟨⟨a, ha, ea⟩, ⟨b, hb, eb⟩⟩ := h.inv.ex x hx
  refine ⟨x, hx, a, ha, b, hb, e, ea.symm, eb.symm, h.bs x hx a ha ea, h.bd x hx b hb eb, ?_⟩
  have h1 : shGet w r.sh = .ok x := by simp only [shGet, ← e, sh_mem h.inv.ns hx]
  simp only [routeLine, h1, bind_ok, ← ea, ← eb, instName_ok h ha, instName_ok h hb]

/-- the routes in terms of names -/
theorem routeLines_ok {w : W} (h : Good w) : ∀ rs : List Route, (∀ r ∈ rs, r ∈ w.routes) →
    ∃ ls, routeLines w rs = .ok ls ∧ ls.length = rs.length ∧ ∀ l ∈ ls, ∃ r ∈ rs, routeLine w r = .ok l := by
  intro rs
  induction rs with
  | nil => intro _; exact ⟨[], rfl, rfl, by intro l hl; cases hl⟩
  | cons r rs ih =>
    intro hm
    obtain ⟨x, -, a, -, b, -, -, -, -, -, -, e⟩ := routeLine_ok h (hm r List.mem_cons_self)
    obtain ⟨ls, e1, e2, e3⟩ := ih (fun q hq => hm q (List.mem_cons_of_mem _ hq))
    refine ⟨.route a.name r.s b.name r.d :: ls, by simp only [routeLines, e, e1, bind_ok], by simp [e2], ?_⟩
    intro l hl
    rcases List.mem_cons.1 hl with rfl | hl
    · exact ⟨r, List.mem_cons_self, e⟩
    · obtain ⟨q, hq, e⟩ := e3 l hl
      exact ⟨q, List.mem_cons_of_mem _ hq, e⟩

theorem routeLines_append (w : W) (xs ys : List Route) : routeLines w (xs ++ ys) = (do
    let a ← routeLines w xs
    let b ← routeLines w ys
    .ok (a ++ b)) := by
  induction xs with
  | nil =>
    simp only [List.nil_append, routeLines, bind_ok]
    cases routeLines w ys <;> rfl
  | cons x xs ih =>
    simp only [List.cons_append, routeLines, ih]
    cases routeLine w x with
    | error e => rfl
    | ok l =>
      simp only [bind_ok]
      cases routeLines w xs with
      | error e => rfl
      | ok a =>
        simp only [bind_ok]
        cases routeLines w ys with
        | error e => rfl
        | ok b => rfl

/-! ## Reading -/

theorem lookup_names {w : W} (h : Good w) {a b : Inst} (ha : a ∈ w.insts) (hb : b ∈ w.insts) (hne : a.name ≠ b.name) :
    lookup w a.name b.name = (some a, some b) := by
  have key : ∀ (l : List Inst) (acc : Option Inst × Option Inst), (∀ i ∈ l, i ∈ w.insts) → (l.map Inst.name).Nodup →
      l.foldl (fun (r : Option Inst × Option Inst) i => if nameEq i.name a.name then (some i, r.2) else if nameEq i.name b.name then (r.1, some i) else r) acc =
        (if a ∈ l then some a else acc.1, if b ∈ l then some b else acc.2) := by
    intro l
    induction l with
    | nil => intro acc _ _; simp
    | cons i l ih =>
      intro acc hl hn
      have hi := hl i List.mem_cons_self
      rw [List.map_cons, List.nodup_cons] at hn
      have hni : ∀ j ∈ l, j.name ≠ i.name := fun j hj e => hn.1 (e ▸ List.mem_map_of_mem hj)
      rw [List.foldl_cons, ih _ (fun j hj => hl j (List.mem_cons_of_mem _ hj)) hn.2]
      by_cases e1 : i.name = a.name
      · rw [if_pos (c := nameEq i.name a.name = true) ((nameEq_short (h.len i hi) (h.len a ha)).2 e1)]
        have hia : i = a := map_inj h.nmn hi ha e1
        subst hia
        have hnb : b ≠ i := fun e => hne (by rw [e])
        have hal : i ∉ l := fun hm => hni i hm rfl
        simp [hnb, hal]
      · have hai : a ≠ i := fun e => e1 (by rw [e])
        rw [if_neg (c := nameEq i.name a.name = true) (by rw [nameEq_short (h.len i hi) (h.len a ha)]; exact e1)]
        by_cases e2 : i.name = b.name
        · rw [if_pos (c := nameEq i.name b.name = true) ((nameEq_short (h.len i hi) (h.len b hb)).2 e2)]
          have hib : i = b := map_inj h.nmn hi hb e2
          subst hib
          have hal : i ∉ l := fun hm => hni i hm rfl
          simp [hai, hal]
        · rw [if_neg (c := nameEq i.name b.name = true) (by rw [nameEq_short (h.len i hi) (h.len b hb)]; exact e2)]
          have hbi : b ≠ i := fun e => e2 (by rw [e])
          simp [hai, hbi]
  have := key w.insts (none, none) (fun i hi => hi) h.nmn
  rw [if_pos ha, if_pos hb] at this
  exact this

theorem args_names {w : W} (h : Good w) {a b : Inst} (ha : a ∈ w.insts) (hb : b ∈ w.insts) (ha1 : a.bind = true) (hb1 : b.bind = false) (s d : Byte) :
    args w a.name s.toNat b.name d.toNat = some (a, b) := by
  have hne : a.name ≠ b.name := by
    intro e
    have := map_inj h.nmn ha hb e
    rw [this, hb1] at ha1; cases ha1
  have hs : s.toNat ≤ 255 := by have := s.isLt; omega
  have hd : d.toNat ≤ 255 := by have := d.isLt; omega
  simp only [args, lookup_names h ha hb hne, ha1, hb1, hs, hd]
  rfl

/-- the lines of old routes do not change when instances keep their keys and shared objects their ends -/
theorem routeLine_same {w w' : W} (h : Good w) (h' : Good w') (hk : w'.insts.map key = w.insts.map key) {r : Route} (hr : r ∈ w.routes)
    (hsh : ∀ x, sh? w r.sh = some x → ∃ y, sh? w' r.sh = some y ∧ y.src = x.src ∧ y.dst = x.dst) : routeLine w' r = routeLine w r := by
  obtain ⟨x, hx, a, ha, b, hb, e1, e2, e3, -, -, e⟩ := routeLine_ok h hr
  rw [e]
  obtain ⟨y, y1, y2, y3⟩ := hsh x (by rw [← e1]; exact sh_mem h.inv.ns hx)
  obtain ⟨k1, k2, k3, k4, -⟩ := of_key hk
  obtain ⟨a', ha', ea⟩ := k4 a ha
  obtain ⟨b', hb', eb⟩ := k4 b hb
  have ea1 : a'.id = a.id := congrArg (fun x => x.1) ea
  have ea2 : a'.name = a.name := congrArg (fun x => x.2.1) ea
  have eb1 : b'.id = b.id := congrArg (fun x => x.1) eb
  have eb2 : b'.name = b.name := congrArg (fun x => x.2.1) eb
  have h1 : shGet w' r.sh = .ok y := by simp only [shGet, y1]
  simp only [routeLine, h1, bind_ok, y2, y3, e2, e3, ← ea1, ← eb1, instName_ok h' ha', instName_ok h' hb', ea2, eb2]

theorem routeLines_same {w w' : W} : ∀ rs : List Route, (∀ r ∈ rs, routeLine w' r = routeLine w r) → routeLines w' rs = routeLines w rs
  | [], _ => rfl
  | r :: rs, h => by
    simp only [routeLines, h r List.mem_cons_self, routeLines_same rs (fun q hq => h q (List.mem_cons_of_mem _ hq))]

theorem addFinish_sh {w : W} {a b : Nat} {s d : Byte} {x : Sh} {rid i : Nat} (hx : x.src = a ∧ x.dst = b) (hu : ∀ y, sh? w i = some y → y.id = x.id → y = x)
    {y : Sh} (h : sh? w i = some y) : ∃ z, sh? (addFinish w a b s d x rid) i = some z ∧ z.src = y.src ∧ z.dst = y.dst := by
  let x' : Sh := { x with src := a, dst := b, sid := upd x.sid s d, did := upd x.did d s, smap := upd x.smap s true, dmap := upd x.dmap d true, refcnt := x.refcnt + 1 }
  have e : sh? (addFinish w a b s d x rid) i = sh? (setSh w x') i := rfl
  rw [e, sh_setSh, h]
  by_cases hy : y.id = x.id
  · have := hu y h hy
    subst this
    exact ⟨x', by simp [x'], hx.1.symm, hx.2.symm⟩
  · exact ⟨y, by simp [x', hy], rfl, rfl⟩

/-- reading the line of a route that is not there yet -/
theorem read_route {w : W} (h : Good w) {a b : Inst} (ha : a ∈ w.insts) (hb : b ∈ w.insts) (ha1 : a.bind = true) (hb1 : b.bind = false) (s d : Byte)
    {ls : List Line} (hl : routeLines w w.routes = .ok ls) (hn : Line.route a.name s b.name d ∉ ls) :
    ∃ w', step w (Line.route a.name s b.name d).op = .ok w' ∧ Good w' ∧ w'.insts.map key = w.insts.map key ∧
      routeLines w' w'.routes = .ok (ls ++ [.route a.name s b.name d]) := by
  have hargs := args_names h ha hb ha1 hb1 s d
  refine ⟨(routeAdd w a.name s.toNat b.name d.toNat true).1, rfl, ?_⟩
  have hst : step w (.routeAdd a.name s.toNat b.name d.toNat true) = .ok (routeAdd w a.name s.toNat b.name d.toNat true).1 := rfl
  have hg := step_good h (by intro n b e; cases e) hst
  revert hg
  simp only [routeAdd, hargs, BitVec.ofNat_toNat, BitVec.setWidth_eq]
  -- the common part
  have fin : ∀ (v : W) (x : Sh) (rid : Nat), v.insts = w.insts → v.routes = w.routes → (∀ y, sh? w y.id = some y → sh? v y.id = some y) →
      sh? v x.id = some x → x.src = a.id ∧ x.dst = b.id → Good (addFinish v a.id b.id s d x rid) →
      (addFinish v a.id b.id s d x rid).insts.map key = w.insts.map key ∧
      routeLines (addFinish v a.id b.id s d x rid) (addFinish v a.id b.id s d x rid).routes = .ok (ls ++ [.route a.name s b.name d]) := by
    intro v x rid v1 v2 v3 v4 v5 hg
    have hk : (addFinish v a.id b.id s d x rid).insts.map key = w.insts.map key := by rw [addFinish_key, v1]
    refine ⟨hk, ?_⟩
    have hr : (addFinish v a.id b.id s d x rid).routes = w.routes ++ [⟨rid, s, d, x.id⟩] := by rw [← v2]; rfl
    rw [hr, routeLines_append]
    have e1 : routeLines (addFinish v a.id b.id s d x rid) w.routes = .ok ls := by
      rw [← hl]
      apply routeLines_same
      intro r hr'
      refine routeLine_same h hg hk hr' ?_
      intro y hy
      have hyid := (sh_some hy).2
      have hv : sh? v r.sh = some y := by rw [← hyid]; exact v3 y (by rw [hyid]; exact hy)
      refine addFinish_sh v5 ?_ hv
      intro z hz hzx
      have := (sh_some hz).2
      rw [← this, hzx] at hz
      rw [v4] at hz
      exact (Option.some.inj hz).symm
    obtain ⟨y, y1, a', ha', b', hb', y2, y3, y4, -, -, y5⟩ := routeLine_ok hg (show (⟨rid, s, d, x.id⟩ : Route) ∈ (addFinish v a.id b.id s d x rid).routes by
      rw [hr]; simp)
    obtain ⟨z, z1, z2, z3⟩ := addFinish_sh (s := s) (d := d) (rid := rid) v5 (by
      intro z hz _
      rw [v4] at hz
      exact (Option.some.inj hz).symm) v4
    have hyz : z = y := by
      have := sh_mem hg.inv.ns y1
      rw [y2] at this
      exact Option.some.inj (z1.symm.trans this)
    obtain ⟨-, -, k3, -, -⟩ := of_key hk
    obtain ⟨a2, ha2, ea⟩ := k3 a' ha'
    obtain ⟨b2, hb2, eb⟩ := k3 b' hb'
    have ea1 : a2.id = a'.id := congrArg (fun x => x.1) ea
    have ea2 : a2.name = a'.name := congrArg (fun x => x.2.1) ea
    have eb1 : b2.id = b'.id := congrArg (fun x => x.1) eb
    have eb2 : b2.name = b'.name := congrArg (fun x => x.2.1) eb
    have h1 : a2 = a := map_inj h.idn ha2 ha (by rw [ea1, ← y3, ← hyz, z2, v5.1])
    have h2 : b2 = b := map_inj h.idn hb2 hb (by rw [eb1, ← y4, ← hyz, z3, v5.2])
    rw [e1]
    simp only [bind_ok, routeLines, y5, ← ea2, ← eb2, h1, h2]
  cases hfr : firstRoute w a.id b.id with
  | some rx =>
    obtain ⟨r, x⟩ := rx
    obtain ⟨f1, f2, f3, f4⟩ := firstRoute_some hfr
    obtain ⟨f5, f6⟩ := sh_some f2
    simp only
    rw [if_neg]
    · intro hg
      exact ⟨hg, fin { w with next := w.next + 1 } x w.next rfl rfl (fun y hy => hy) (by rw [f6]; exact f2) ⟨f3, f4⟩ hg⟩
    · intro hc
      apply hn
      have hline : routeLine w r = .ok (.route a.name s b.name d) := by
        have h1 : shGet w r.sh = .ok x := by simp only [shGet, f2]
        simp only [routeLine, h1, bind_ok, f3, f4, instName_ok h ha, instName_ok h hb, hc.1, hc.2]
      have : ∀ (rs : List Route) (ls : List Line), r ∈ rs → routeLines w rs = .ok ls → Line.route a.name s b.name d ∈ ls := by
        intro rs
        induction rs with
        | nil => intro ls hr; cases hr
        | cons q rs ih =>
          intro ls hr hq
          simp only [routeLines] at hq
          cases hq1 : routeLine w q with
          | error e => rw [hq1] at hq; cases hq
          | ok l =>
            rw [hq1] at hq
            simp only [bind_ok] at hq
            cases hq2 : routeLines w rs with
            | error e => rw [hq2] at hq; cases hq
            | ok l2 =>
              rw [hq2] at hq
              have := Except.ok.inj hq
              subst this
              rcases List.mem_cons.1 hr with rfl | hr
              · rw [hline] at hq1
                rw [Except.ok.inj hq1]; exact List.mem_cons_self
              · exact List.mem_cons_of_mem _ (ih l2 hr hq2)
      exact this w.routes ls f1 hl
  | none =>
    simp only [if_true]
    intro hg
    have hfresh : ∀ y ∈ w.shs, y.id ≠ w.next + 1 := by
      intro y hy e
      have := h.inv.ls y hy
      omega
    have hnone : w.shs.find? (fun y => decide (y.id = w.next + 1)) = none := by
      rw [List.find?_eq_none]
      intro y hy
      simpa using hfresh y hy
    refine ⟨hg, fin { w with shs := w.shs ++ [⟨w.next + 1, a.id, b.id, 0, fun _ => false, fun _ => 0, fun _ => false, fun _ => 0, w.next⟩], next := w.next + 2 }
      ⟨w.next + 1, a.id, b.id, 0, fun _ => false, fun _ => 0, fun _ => false, fun _ => 0, w.next⟩ w.next rfl rfl ?_ ?_ ⟨rfl, rfl⟩ hg⟩
    · intro y hy
      simp only [sh?, List.find?_append] at hy ⊢
      rw [hy]; rfl
    · simp only [sh?, List.find?_append, hnone]
      simp

theorem mem_lines {w : W} : ∀ {rs : List Route} {ls : List Line}, routeLines w rs = .ok ls → ∀ l, l ∈ ls ↔ ∃ r ∈ rs, routeLine w r = .ok l := by
  intro rs
  induction rs with
  | nil =>
    intro ls h l
    rw [← Except.ok.inj h]
    constructor
    · intro h; cases h
    · rintro ⟨r, hr, -⟩; cases hr
  | cons q rs ih =>
    intro ls hq l
    simp only [routeLines] at hq
    cases hq1 : routeLine w q with
    | error e => rw [hq1] at hq; cases hq
    | ok l1 =>
      rw [hq1] at hq
      simp only [bind_ok] at hq
      cases hq2 : routeLines w rs with
      | error e => rw [hq2] at hq; cases hq
      | ok l2 =>
        rw [hq2] at hq
        have := Except.ok.inj hq
        subst this
        rw [List.mem_cons, ih hq2]
        constructor
        · rintro (rfl | ⟨r, hr, e⟩)
          · exact ⟨q, List.mem_cons_self, hq1⟩
          · exact ⟨r, List.mem_cons_of_mem _ hr, e⟩
        · rintro ⟨r, hr, e⟩
          rcases List.mem_cons.1 hr with rfl | hr
          · rw [hq1] at e; exact Or.inl (Except.ok.inj e).symm
          · exact Or.inr ⟨r, hr, e⟩

/-- no line twice, if no stream is used twice -/
theorem lines_nodup {w : W} (h : Good w) (hM : InvM w) : ∀ {rs : List Route} {ls : List Line}, (∀ r ∈ rs, r ∈ w.routes) → rs.Nodup →
    routeLines w rs = .ok ls → ls.Nodup := by
  intro rs
  induction rs with
  | nil => intro ls _ _ h; rw [← Except.ok.inj h]; exact List.nodup_nil
  | cons q rs ih =>
    intro ls hm hn hq
    rw [List.nodup_cons] at hn
    obtain ⟨x, hx, a, ha, b, hb, e1, e2, e3, e4, e5, e⟩ := routeLine_ok h (hm q List.mem_cons_self)
    simp only [routeLines, e, bind_ok] at hq
    cases hq2 : routeLines w rs with
    | error e => rw [hq2] at hq; cases hq
    | ok l2 =>
      rw [hq2] at hq
      have := Except.ok.inj hq
      subst this
      refine List.nodup_cons.2 ⟨?_, ih (fun r hr => hm r (List.mem_cons_of_mem _ hr)) hn.2 hq2⟩
      intro hmem
      obtain ⟨r, hr, er⟩ := (mem_lines hq2 _).1 hmem
      obtain ⟨x', hx', a', ha', b', hb', f1, f2, f3, f4, f5, f⟩ := routeLine_ok h (hm r (List.mem_cons_of_mem _ hr))
      rw [f] at er
      have er := Except.ok.inj er
      simp only [Line.route.injEq] at er
      obtain ⟨g1, g2, g3, g4⟩ := er
      have haa : a' = a := map_inj h.nmn ha' ha g1
      have hbb : b' = b := map_inj h.nmn hb' hb g3
      have hxx : x' = x := h.inv.pair x' hx' x hx (by rw [f2, e2, haa]) (by rw [f3, e3, hbb])
      have := (hM x hx).us r (hm r (List.mem_cons_of_mem _ hr)) q (hm q List.mem_cons_self) (by rw [← f1, hxx]) e1.symm g2
      subst this
      exact hn.1 hr

theorem run_append {w w1 : W} {xs ys : List Op} (h : run w xs = .ok w1) : run w (xs ++ ys) = run w1 ys := by
  induction xs generalizing w with
  | nil => rw [Except.ok.inj h]; rfl
  | cons x xs ih =>
    simp only [run] at h
    cases hs : step w x with
    | error e => rw [hs] at h; cases h
    | ok w2 =>
      rw [hs] at h
      simp only [List.cons_append, run, hs, bind_ok]
      exact ih h

/-- the instances in terms of lines -/
def instLines (w : W) : List Line := w.insts.map (fun i => Line.inst i.name i.bind)

theorem read_insts : ∀ (is : List Inst) (v : W), Good v → v.routes = [] → (∀ i ∈ is, i.name.length ≤ 15) →
    (v.insts.map Inst.name ++ is.map Inst.name).Nodup →
    ∃ v', run v ((is.map (fun i => Line.inst i.name i.bind)).map Line.op) = .ok v' ∧ Good v' ∧ v'.routes = [] ∧
      instLines v' = instLines v ++ is.map (fun i => Line.inst i.name i.bind) := by
  intro is
  induction is with
  | nil => intro v hg hr _ _; exact ⟨v, rfl, hg, hr, by simp⟩
  | cons i is ih =>
    intro v hg hr hl hn
    have hi := hl i List.mem_cons_self
    have hne : v.insts.any (fun j => nameEq j.name i.name) = false := by
      rw [List.any_eq_false]
      intro j hj e
      have e := (nameEq_short (hg.len j hj) hi).1 e
      rw [List.nodup_append] at hn
      exact hn.2.2 j.name (List.mem_map_of_mem hj) i.name (by simp) e
    have htn : i.name.take (NAME - 1) = i.name := List.take_of_length_le (by simpa [NAME] using hi)
    have e : (instAdd v i.name i.bind).1 = { v with insts := v.insts ++ [⟨v.next, i.name, i.bind, 0⟩], next := v.next + 1 } := by
      simp only [instAdd, hne, htn]; rfl
    have hg' := instAdd_good hg hi i.bind
    obtain ⟨v', h1, h2, h3, h4⟩ := ih (instAdd v i.name i.bind).1 hg' (by rw [e]; exact hr) (fun j hj => hl j (List.mem_cons_of_mem _ hj)) (by
      rw [e]; simpa using hn)
    refine ⟨v', ?_, h2, h3, ?_⟩
    · simp only [List.map_cons, Line.op, run, step, bind_ok]
      exact h1
    · rw [h4, e]; simp [instLines]

theorem inst_of_lines {v w : W} (h : instLines v = instLines w) {a : Inst} (ha : a ∈ w.insts) : ∃ a' ∈ v.insts, a'.name = a.name ∧ a'.bind = a.bind := by
  have : Line.inst a.name a.bind ∈ instLines v := by rw [h]; exact List.mem_map.2 ⟨a, ha, rfl⟩
  obtain ⟨a', h1, h2⟩ := List.mem_map.1 this
  simp only [Line.inst.injEq] at h2
  exact ⟨a', h1, h2⟩

theorem read_routes {w : W} (hw : Good w) {ls : List Line} (hl : routeLines w w.routes = .ok ls) (hn : ls.Nodup) :
    ∀ (rest done : List Line) (v : W), ls = done ++ rest → Good v → instLines v = instLines w → routeLines v v.routes = .ok done →
    ∃ v', run v (rest.map Line.op) = .ok v' ∧ Good v' ∧ instLines v' = instLines w ∧ routeLines v' v'.routes = .ok ls := by
  intro rest
  induction rest with
  | nil => intro done v e hg hi hd; exact ⟨v, rfl, hg, hi, by rw [e, List.append_nil]; exact hd⟩
  | cons l rest ih =>
    intro done v e hg hi hd
    obtain ⟨r, hr, er⟩ := (mem_lines hl l).1 (by rw [e]; simp)
    obtain ⟨x, hx, a, ha, b, hb, -, -, -, e4, e5, e6⟩ := routeLine_ok hw hr
    rw [e6] at er
    have er := Except.ok.inj er
    subst er
    obtain ⟨a', ha', a1, a2⟩ := inst_of_lines hi ha
    obtain ⟨b', hb', b1, b2⟩ := inst_of_lines hi hb
    have hnd : Line.route a'.name r.s b'.name r.d ∉ done := by
      rw [a1, b1]
      intro hm
      rw [e, List.nodup_append] at hn
      exact hn.2.2 _ hm _ List.mem_cons_self rfl
    obtain ⟨v1, s1, s2, s3, s4⟩ := read_route hg ha' hb' (a2.trans e4) (b2.trans e5) r.s r.d hd hnd
    rw [a1, b1] at s1 s4
    obtain ⟨v', t1, t2, t3, t4⟩ := ih (done ++ [.route a.name r.s b.name r.d]) v1 (by rw [e]; simp) s2 (by
      rw [← hi]; exact (of_key s3).2.2.2.2) s4
    exact ⟨v', by simp only [List.map_cons, run, s1, bind_ok]; exact t1, t2, t3, t4⟩

/-- a route between streams of two instances, by name -/
def NamedRoute (w : W) (sn : List Byte) (s : Byte) (dn : List Byte) (d : Byte) : Prop :=
  ∃ a ∈ w.insts, ∃ b ∈ w.insts, a.name = sn ∧ b.name = dn ∧ HasRoute w a.id b.id s d

theorem named_iff {w : W} (h : Good w) {ls : List Line} (hl : routeLines w w.routes = .ok ls) (sn : List Byte) (s : Byte) (dn : List Byte) (d : Byte) :
    Line.route sn s dn d ∈ ls ↔ NamedRoute w sn s dn d := by
  rw [mem_lines hl]
  constructor
  · rintro ⟨r, hr, e⟩
    obtain ⟨x, hx, a, ha, b, hb, e1, e2, e3, -, -, e6⟩ := routeLine_ok h hr
    rw [e6] at e
    have e := Except.ok.inj e
    simp only [Line.route.injEq] at e
    obtain ⟨rfl, rfl, rfl, rfl⟩ := e
    exact ⟨a, ha, b, hb, rfl, rfl, r, hr, x, hx, e1, e2, e3, rfl, rfl⟩
  · rintro ⟨a, ha, b, hb, rfl, rfl, r, hr, x, hx, e1, e2, e3, rfl, rfl⟩
    refine ⟨r, hr, ?_⟩
    have h1 : shGet w r.sh = .ok x := by simp only [shGet, ← e1, sh_mem h.inv.ns hx]
    simp only [routeLine, h1, bind_ok, e2, e3, instName_ok h ha, instName_ok h hb]

/-- **C164** After a history of commands that does not use a stream twice between the same instances (nor deletes the last route between
two), with names of at most 15 octets: the configuration can be written, and reading it by a new process gives the same
instances, in order, with the same types, and the same routes, in order; written again it is the same. -/
theorem C164_roundtrip_partial (ops : List Op) (ha : AdmRun init ops) (hn : ShortNames ops) :
    ∃ w ls w', run init ops = .ok w ∧ cfgWrite w = .ok ls ∧ run init (ls.map Line.op) = .ok w' ∧ cfgWrite w' = .ok ls ∧
      w'.insts.map (fun i => (i.name, i.bind)) = w.insts.map (fun i => (i.name, i.bind)) ∧
      w'.routes.map (fun r => (r.s, r.d)) = w.routes.map (fun r => (r.s, r.d)) ∧
      ∀ sn s dn d, NamedRoute w' sn s dn d ↔ NamedRoute w sn s dn d := by
  obtain ⟨w, h1, hI, hF, hM⟩ := run_M init_inv.1 init_inv.2 (by intro x hx; simp [init] at hx) ha
  have hg := run_good init_good hn h1
  obtain ⟨ls, hl, -, -⟩ := routeLines_ok hg w.routes (fun r hr => hr)
  have hnr : w.routes.Nodup := by
    have := hI.nr
    rw [List.Nodup, List.pairwise_map] at this
    exact this.imp (fun h e => h (by rw [e]))
  have hnd := lines_nodup hg hM (fun r hr => hr) hnr hl
  obtain ⟨v, v1, v2, v3, v4⟩ := read_insts w.insts init init_good rfl hg.len (by simpa [init] using hg.nmn)
  have v4 : instLines v = instLines w := by rw [v4]; simp [instLines, init]
  obtain ⟨w', t1, t2, t3, t4⟩ := read_routes hg hl hnd ls [] v rfl v2 v4 (by rw [v3]; rfl)
  have hc : cfgWrite w = .ok (instLines w ++ ls) := by simp only [cfgWrite, hl, bind_ok]; rfl
  refine ⟨w, instLines w ++ ls, w', h1, hc, ?_, ?_, ?_, ?_, ?_⟩
  · rw [List.map_append]; exact (run_append (w1 := v) v1).trans t1
  · simp only [cfgWrite, t4, bind_ok]
    change Except.ok (instLines w' ++ ls) = _
    rw [t3]
  · have f : ∀ l : List Inst, l.map (fun i => (i.name, i.bind)) = (l.map (fun i => Line.inst i.name i.bind)).map (fun x => match x with | .inst n b => (n, b) | .route _ _ _ _ => ([], false)) := by
      intro l; rw [List.map_map]; rfl
    rw [f, f]
    exact congrArg _ t3
  · have f : ∀ (x : W) (rs : List Route) (ks : List Line), Good x → (∀ r ∈ rs, r ∈ x.routes) → routeLines x rs = .ok ks →
        rs.map (fun r => (r.s, r.d)) = ks.map (fun x => match x with | .inst _ _ => (0, 0) | .route _ s _ d => (s, d)) := by
      intro x rs
      induction rs with
      | nil => intro ks _ _ h; rw [← Except.ok.inj h]; rfl
      | cons r rs ih =>
        intro ks hx hm h
        obtain ⟨_, -, a, -, b, -, -, -, -, -, -, e⟩ := routeLine_ok hx (hm r List.mem_cons_self)
        simp only [routeLines, e, bind_ok] at h
        cases hq2 : routeLines x rs with
        | error e => rw [hq2] at h; cases h
        | ok l2 =>
          rw [hq2] at h
          rw [← Except.ok.inj h, List.map_cons, List.map_cons, ih l2 hx (fun q hq => hm q (List.mem_cons_of_mem _ hq)) hq2]
    rw [f w' _ ls t2 (fun r hr => hr) t4, f w _ ls hg (fun r hr => hr) hl]
  · intro sn s dn d
    rw [← named_iff t2 t4, ← named_iff hg hl]

/-- what is written, and what a new process has after reading it -/
def rewritten (w : W) : M (List Line × List Line) := do
  let ls ← cfgWrite w
  let w' ← run init (ls.map Line.op)
  let ls' ← cfgWrite w'
  .ok (ls, ls')

def nL : List Byte := List.replicate 16 0x61

/-- **C164** (defect) Names of 16 octets: two instances become one. -/
theorem C164_long_name_violated : ((run init [.instAdd nL true, .instAdd nL false]) >>= rewritten) =
    .ok ([.inst (List.replicate 15 0x61) true, .inst (List.replicate 15 0x61) false], [.inst (List.replicate 15 0x61) true]) := by decide +kernel

/-- **C164** (defect) A route that was added twice is read once if it comes to be the first one. -/
theorem C164_duplicate_violated : ((run init [.instAdd nA true, .instAdd nB false, .routeAdd nA 1 nB 1 true, .routeAdd nA 3 nB 3 true, .routeAdd nA 3 nB 3 true,
    .routeDel nA 1 nB 1]) >>= rewritten) =
    .ok ([.inst nA true, .inst nB false, .route nA 3 nB 3, .route nA 3 nB 3], [.inst nA true, .inst nB false, .route nA 3 nB 3]) := by decide +kernel

example : AdmRun init hist ∧ ShortNames hist :=
  ⟨hist_adm, by
    intro n b h
    simp only [hist, List.mem_cons, Op.instAdd.injEq, List.not_mem_nil, or_false, reduceCtorEq, false_or] at h
    rcases h with ⟨rfl, -⟩ | ⟨rfl, -⟩ <;> decide⟩

example : (run init hist >>= rewritten) = .ok ([.inst nA true, .inst nB false, .route nA 0 nB 0, .route nA 7 nB 7],
    [.inst nA true, .inst nB false, .route nA 0 nB 0, .route nA 7 nB 7]) := by decide +kernel

end Verif.IpaProxy
