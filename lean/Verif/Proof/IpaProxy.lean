import Verif.Spec.IpaProxy
/-!
# Invariants of the proxy
-/
set_option maxRecDepth 10000
namespace Verif.IpaProxy

theorem bind_ok {α β : Type} (x : α) (f : α → M β) : (Except.ok x >>= f) = f x := rfl

/-- the route uses instance `i` as source -/
def pS (w : W) (i : Nat) (r : Route) : Bool := match sh? w r.sh with | some x => x.src == i | none => false
def pD (w : W) (i : Nat) (r : Route) : Bool := match sh? w r.sh with | some x => x.dst == i | none => false

theorem uses_eq (w : W) (i : Nat) : uses w i = w.routes.countP (pS w i) + w.routes.countP (pD w i) := rfl

structure InvR (w : W) : Prop where
  nr : (w.routes.map Route.id).Nodup
  lr : ∀ r ∈ w.routes, r.id < w.next
  ns : (w.shs.map Sh.id).Nodup
  ls : ∀ x ∈ w.shs, x.id < w.next
  li : ∀ i ∈ w.insts, i.id < w.next
  hsh : ∀ r ∈ w.routes, ∃ x ∈ w.shs, x.id = r.sh
  hcnt : ∀ x ∈ w.shs, x.refcnt = (w.routes.countP (fun r => r.sh == x.id) : Nat)
  hi : ∀ i ∈ w.insts, i.refcnt = (uses w i.id : Nat)
  pair : ∀ x ∈ w.shs, ∀ y ∈ w.shs, x.src = y.src → x.dst = y.dst → x = y
  ex : ∀ x ∈ w.shs, (∃ i ∈ w.insts, i.id = x.src) ∧ ∃ i ∈ w.insts, i.id = x.dst

/-- every shared object is used by a route -/
def Full (w : W) : Prop := ∀ x ∈ w.shs, ∃ r ∈ w.routes, r.sh = x.id

theorem find_nodup {l : List Sh} (hn : (l.map Sh.id).Nodup) {x : Sh} (hx : x ∈ l) : l.find? (fun y => decide (y.id = x.id)) = some x := by
  induction l with
  | nil => simp at hx
  | cons y l ih =>
    simp only [List.map_cons, List.nodup_cons] at hn
    rcases List.mem_cons.1 hx with rfl | hx
    · simp
    · have hne : y.id ≠ x.id := fun h => hn.1 (h ▸ List.mem_map_of_mem hx)
      rw [List.find?_cons_of_neg (by simpa using hne)]
      exact ih hn.2 hx

theorem sh_mem {w : W} (hn : (w.shs.map Sh.id).Nodup) {x : Sh} (hx : x ∈ w.shs) : sh? w x.id = some x := find_nodup hn hx

theorem sh_some {w : W} {i : Nat} {x : Sh} (h : sh? w i = some x) : x ∈ w.shs ∧ x.id = i := by
  refine ⟨List.mem_of_find?_eq_some h, ?_⟩
  have := List.find?_some h
  simpa using this

theorem sh_setSh (w : W) (x' : Sh) (i : Nat) : sh? (setSh w x') i = (sh? w i).map (fun y => if y.id = x'.id then x' else y) := by
  simp only [sh?, setSh, List.find?_map]
  congr 1
  congr 1
  funext y
  simp only [Function.comp]
  have : (if y.id = x'.id then x' else y).id = y.id := by
    by_cases h : y.id = x'.id
    · rw [if_pos h, h]
    · rw [if_neg h]
  simp only [this]

theorem sh_refInst (w : W) (i : Nat) (k : Int) (j : Nat) : sh? (refInst w i k) j = sh? w j := rfl

theorem setSh_ids (w : W) (x' : Sh) : (setSh w x').shs.map Sh.id = w.shs.map Sh.id := by
  simp only [setSh, List.map_map]
  apply List.map_congr_left
  intro y _
  simp only [Function.comp]
  by_cases h : y.id = x'.id
  · rw [if_pos h, h]
  · rw [if_neg h]

theorem countP_remove {l : List Route} (hn : (l.map Route.id).Nodup) {r : Route} (hr : r ∈ l) (p : Route → Bool) :
    (l.filter (fun q => q.id ≠ r.id)).countP p + (if p r then 1 else 0) = l.countP p := by
  induction l with
  | nil => simp at hr
  | cons q l ih =>
    simp only [List.map_cons, List.nodup_cons] at hn
    rcases List.mem_cons.1 hr with rfl | hr'
    · have hf : l.filter (fun q => decide (q.id ≠ r.id)) = l := by
        rw [List.filter_eq_self]
        intro a ha
        have : a.id ≠ r.id := fun h => hn.1 (h ▸ List.mem_map_of_mem ha)
        simpa using this
      rw [List.filter_cons_of_neg (by simp), hf, List.countP_cons]
    · have hne : q.id ≠ r.id := fun h => hn.1 (h ▸ List.mem_map_of_mem hr')
      rw [List.filter_cons_of_pos (by simpa using hne), List.countP_cons, List.countP_cons]
      have := ih hn.2 hr'
      omega

theorem lookup_mem (w : W) (sn dn : List Byte) :
    (∀ a, (lookup w sn dn).1 = some a → a ∈ w.insts) ∧ ∀ b, (lookup w sn dn).2 = some b → b ∈ w.insts := by
  have key : ∀ (l : List Inst) (acc : Option Inst × Option Inst), (∀ i ∈ l, i ∈ w.insts) →
      (∀ a, acc.1 = some a → a ∈ w.insts) → (∀ b, acc.2 = some b → b ∈ w.insts) →
      (∀ a, (l.foldl (fun (r : Option Inst × Option Inst) i => if nameEq i.name sn then (some i, r.2) else if nameEq i.name dn then (r.1, some i) else r) acc).1 = some a → a ∈ w.insts) ∧
      ∀ b, (l.foldl (fun (r : Option Inst × Option Inst) i => if nameEq i.name sn then (some i, r.2) else if nameEq i.name dn then (r.1, some i) else r) acc).2 = some b → b ∈ w.insts := by
    intro l
    induction l with
    | nil => intro acc _ h1 h2; exact ⟨h1, h2⟩
    | cons i l ih =>
      intro acc hl h1 h2
      rw [List.foldl_cons]
      have hi := hl i List.mem_cons_self
      refine ih _ (fun j hj => hl j (List.mem_cons_of_mem _ hj)) ?_ ?_
      · intro a ha
        split at ha
        · simp only [Option.some.injEq] at ha; exact ha ▸ hi
        · split at ha <;> exact h1 a ha
      · intro b hb
        split at hb
        · exact h2 b hb
        · split at hb
          · simp only [Option.some.injEq] at hb; exact hb ▸ hi
          · exact h2 b hb
  exact key w.insts (none, none) (fun i h => h) (by simp) (by simp)

theorem args_mem {w : W} {sn dn : List Byte} {s d : Nat} {a b : Inst} (h : args w sn s dn d = some (a, b)) :
    a ∈ w.insts ∧ b ∈ w.insts ∧ s ≤ 255 ∧ d ≤ 255 ∧ a.bind = true ∧ b.bind = false := by
  have hl := lookup_mem w sn dn
  simp only [args] at h
  split at h
  · rename_i a' b' he
    split at h
    · rename_i hc
      simp only [Option.some.injEq, Prod.mk.injEq] at h
      obtain ⟨rfl, rfl⟩ := h
      simp only [Bool.and_eq_true, Bool.not_eq_true', decide_eq_true_eq] at hc
      exact ⟨hl.1 _ (by rw [he]), hl.2 _ (by rw [he]), hc.1.2, hc.2, hc.1.1.1, hc.1.1.2⟩
    · cases h
  · cases h

theorem firstRoute_some {w : W} {a b : Nat} {r : Route} {x : Sh} (h : firstRoute w a b = some (r, x)) :
    r ∈ w.routes ∧ sh? w r.sh = some x ∧ x.src = a ∧ x.dst = b := by
  obtain ⟨q, hq, he⟩ := List.exists_of_findSome?_eq_some h
  split at he
  · rename_i y hy
    split at he
    · rename_i hc
      simp only [Option.some.injEq, Prod.mk.injEq] at he
      obtain ⟨rfl, rfl⟩ := he
      exact ⟨hq, hy, hc.1, hc.2⟩
    · cases he
  · cases he

theorem firstRoute_none {w : W} {a b : Nat} (h : firstRoute w a b = none) : ∀ r ∈ w.routes, ∀ x, sh? w r.sh = some x → ¬ (x.src = a ∧ x.dst = b) := by
  intro r hr x hx hc
  have := List.findSome?_eq_none_iff.1 h r hr
  rw [hx] at this
  simp only [if_pos hc] at this
  cases this

theorem theRoute_some {w : W} {a b : Nat} {s d : Byte} {r : Route} {x : Sh} (h : theRoute w a b s d = some (r, x)) :
    r ∈ w.routes ∧ sh? w r.sh = some x ∧ x.src = a ∧ x.dst = b ∧ r.s = s ∧ r.d = d := by
  obtain ⟨q, hq, he⟩ := List.exists_of_findSome?_eq_some h
  split at he
  · rename_i y hy
    split at he
    · rename_i hc
      simp only [Option.some.injEq, Prod.mk.injEq] at he
      obtain ⟨rfl, rfl⟩ := he
      exact ⟨hq, hy, hc⟩
    · cases he
  · cases he

/-! ### adding a route -/

theorem add_inv {w : W} {a b : Nat} {s d : Byte} {x : Sh} {rid : Nat} (hI : InvR w) (hx : x ∈ w.shs) (hs : x.src = a) (hd : x.dst = b)
    (hrid : ∀ r ∈ w.routes, r.id ≠ rid) (hlt : rid < w.next) (hfull : ∀ y ∈ w.shs, y.id ≠ x.id → ∃ r ∈ w.routes, r.sh = y.id) :
    InvR (addFinish w a b s d x rid) ∧ Full (addFinish w a b s d x rid) := by
  subst hs hd
  have hxx := sh_mem hI.ns hx
  -- the new shared object
  have hx' : ∃ x' : Sh, x'.id = x.id ∧ x'.src = x.src ∧ x'.dst = x.dst ∧ x'.refcnt = x.refcnt + 1 ∧
      (addFinish w x.src x.dst s d x rid).shs = (setSh w x').shs ∧
      (addFinish w x.src x.dst s d x rid).routes = w.routes ++ [⟨rid, s, d, x.id⟩] ∧
      (addFinish w x.src x.dst s d x rid).next = w.next ∧
      (addFinish w x.src x.dst s d x rid).insts = (refInst (refInst (setSh w x') x.src 1) x.dst 1).insts :=
    ⟨{ x with sid := upd x.sid s d, did := upd x.did d s, smap := upd x.smap s true, dmap := upd x.dmap d true, refcnt := x.refcnt + 1 },
      rfl, rfl, rfl, rfl, rfl, rfl, rfl, rfl⟩
  obtain ⟨x', e1, e2, e3, e4, es, er, en, ei⟩ := hx'
  generalize addFinish w x.src x.dst s d x rid = w' at *
  have hsh' : ∀ i, sh? w' i = (sh? w i).map (fun y => if y.id = x'.id then x' else y) := by
    intro i
    have : sh? w' i = sh? (setSh w x') i := by simp only [sh?, es]
    rw [this, sh_setSh]
  have hids : w'.shs.map Sh.id = w.shs.map Sh.id := by rw [es]; exact setSh_ids w x'
  -- source and destination of the old shared objects are unchanged
  have hsrc : ∀ i, (sh? w' i).map (fun y => (y.src, y.dst)) = (sh? w i).map (fun y => (y.src, y.dst)) := by
    intro i
    rw [hsh', Option.map_map]
    cases h : sh? w i with
    | none => rfl
    | some y =>
      simp only [Option.map_some, Function.comp]
      by_cases hy : y.id = x'.id
      · have : y = x := by
          obtain ⟨h1, h2⟩ := sh_some h
          have h3 := sh_mem hI.ns h1
          rw [hy, e1, hxx] at h3
          exact (Option.some.inj h3).symm
        rw [if_pos hy, e2, e3, this]
      · rw [if_neg hy]
  have hpS : ∀ i r, pS w' i r = pS w i r := by
    intro i r
    have := hsrc r.sh
    unfold pS
    cases h1 : sh? w' r.sh with
    | none => cases h2 : sh? w r.sh with
      | none => rfl
      | some y => rw [h1, h2] at this; simp at this
    | some z => cases h2 : sh? w r.sh with
      | none => rw [h1, h2] at this; simp at this
      | some y => rw [h1, h2] at this; simp only [Option.map_some, Option.some.injEq, Prod.mk.injEq] at this; simp only [this.1]
  have hpD : ∀ i r, pD w' i r = pD w i r := by
    intro i r
    have := hsrc r.sh
    unfold pD
    cases h1 : sh? w' r.sh with
    | none => cases h2 : sh? w r.sh with
      | none => rfl
      | some y => rw [h1, h2] at this; simp at this
    | some z => cases h2 : sh? w r.sh with
      | none => rw [h1, h2] at this; simp at this
      | some y => rw [h1, h2] at this; simp only [Option.map_some, Option.some.injEq, Prod.mk.injEq] at this; simp only [this.2]
  have hmem : ∀ y ∈ w'.shs, ∃ z ∈ w.shs, y = (if z.id = x'.id then x' else z) ∧ y.id = z.id := by
    intro y hy
    rw [es] at hy
    obtain ⟨z, hz, rfl⟩ := List.mem_map.1 hy
    refine ⟨z, hz, rfl, ?_⟩
    by_cases h : z.id = x'.id
    · rw [if_pos h, h]
    · rw [if_neg h]
  have hzx : ∀ z ∈ w.shs, z.id = x'.id → z = x := by
    intro z hz h
    have h3 := sh_mem hI.ns hz
    rw [h, e1, hxx] at h3
    exact (Option.some.inj h3).symm
  have hsd : ∀ y ∈ w'.shs, ∃ z ∈ w.shs, y.id = z.id ∧ y.src = z.src ∧ y.dst = z.dst := by
    intro y hy
    obtain ⟨z, hz, h1, h2⟩ := hmem y hy
    refine ⟨z, hz, h2, ?_⟩
    by_cases h : z.id = x'.id
    · rw [if_pos h] at h1
      have := hzx z hz h
      rw [h1, e2, e3, this]; exact ⟨rfl, rfl⟩
    · rw [if_neg h] at h1
      rw [h1]; exact ⟨rfl, rfl⟩
  have hidx : ∀ y ∈ w'.shs, ∀ z ∈ w'.shs, y.id = z.id → y = z := by
    intro y hy z hz h
    have hn : (w'.shs.map Sh.id).Nodup := hids ▸ hI.ns
    have h1 := sh_mem hn hy
    have h2 := sh_mem hn hz
    rw [h, h2] at h1
    exact (Option.some.inj h1).symm
  refine ⟨⟨?_, ?_, ?_, ?_, ?_, ?_, ?_, ?_, ?_, ?_⟩, ?_⟩
  · rw [er, List.map_append, List.nodup_append]
    refine ⟨hI.nr, by simp, ?_⟩
    intro i hi j hj
    obtain ⟨r, hr, rfl⟩ := List.mem_map.1 hi
    simp only [List.map_cons, List.map_nil, List.mem_singleton] at hj
    subst hj
    exact hrid r hr
  · intro r hr
    rw [er] at hr
    rw [en]
    rcases List.mem_append.1 hr with h | h
    · exact hI.lr r h
    · simp only [List.mem_singleton] at h; subst h; exact hlt
  · rw [hids]; exact hI.ns
  · intro y hy
    obtain ⟨z, hz, _, h⟩ := hmem y hy
    rw [h, en]; exact hI.ls z hz
  · intro i hi
    rw [ei] at hi
    simp only [refInst, setSh, List.map_map] at hi
    obtain ⟨j, hj, rfl⟩ := List.mem_map.1 hi
    rw [en]
    have := hI.li j hj
    simp only [Function.comp]
    split <;> split <;> exact this
  · intro r hr
    rw [er] at hr
    have hmk : ∀ z ∈ w.shs, ∃ y ∈ w'.shs, y.id = z.id := by
      intro z hz
      have : z.id ∈ w'.shs.map Sh.id := hids ▸ List.mem_map_of_mem hz
      obtain ⟨y, hy, h⟩ := List.mem_map.1 this
      exact ⟨y, hy, h⟩
    rcases List.mem_append.1 hr with h | h
    · obtain ⟨z, hz, hzz⟩ := hI.hsh r h
      obtain ⟨y, hy, h⟩ := hmk z hz
      exact ⟨y, hy, by rw [h, hzz]⟩
    · simp only [List.mem_singleton] at h; subst h; exact hmk x hx
  · intro y hy
    rw [er, List.countP_append]
    obtain ⟨z, hz, h1, h2⟩ := hmem y hy
    have hz' := hI.hcnt z hz
    by_cases h : z.id = x'.id
    · rw [if_pos h] at h1
      have := hzx z hz h
      subst this
      rw [h2, h1, e4, hz']
      simp
    · rw [if_neg h] at h1
      have : ¬ x.id = z.id := by rw [← e1]; exact fun e => h e.symm
      subst h1
      rw [hz']
      simp [this]
  · intro i hi
    rw [ei] at hi
    simp only [refInst, setSh, List.map_map] at hi
    obtain ⟨j, hj, rfl⟩ := List.mem_map.1 hi
    have hj' := hI.hi j hj
    have hid : ((fun j => if j.id = x.dst then { j with refcnt := j.refcnt + 1 } else j) ∘ fun j => if j.id = x.src then { j with refcnt := j.refcnt + 1 } else j) j =
        { j with refcnt := j.refcnt + (if j.id = x.src then 1 else 0) + (if j.id = x.dst then 1 else 0) } := by
      simp only [Function.comp]
      by_cases h1 : j.id = x.src
      · rw [if_pos h1, if_pos h1]
        by_cases h2 : j.id = x.dst
        · rw [if_pos (by exact h2), if_pos h2]
        · rw [if_neg (by exact h2), if_neg h2]; simp
      · rw [if_neg h1, if_neg h1]
        by_cases h2 : j.id = x.dst
        · rw [if_pos h2, if_pos h2]; simp
        · rw [if_neg h2, if_neg h2]; simp
    rw [hid]
    simp only
    rw [hj', uses_eq, uses_eq, er, List.countP_append, List.countP_append]
    have c1 : w.routes.countP (pS w' j.id) = w.routes.countP (pS w j.id) := by congr 1; funext r; exact hpS _ r
    have c2 : w.routes.countP (pD w' j.id) = w.routes.countP (pD w j.id) := by congr 1; funext r; exact hpD _ r
    have c3 : pS w' j.id ⟨rid, s, d, x.id⟩ = decide (j.id = x.src) := by
      rw [hpS]; simp only [pS, hxx]
      by_cases h : x.src = j.id
      · simp [h]
      · have h' : ¬ j.id = x.src := fun e => h e.symm
        simp [h, h']
    have c4 : pD w' j.id ⟨rid, s, d, x.id⟩ = decide (j.id = x.dst) := by
      rw [hpD]; simp only [pD, hxx]
      by_cases h : x.dst = j.id
      · simp [h]
      · have h' : ¬ j.id = x.dst := fun e => h e.symm
        simp [h, h']
    rw [c1, c2]
    simp only [List.countP_cons, List.countP_nil, c3, c4, decide_eq_true_eq]
    have t1 : (if j.id = x.src then (1 : Int) else 0) = ((if j.id = x.src then 1 else 0 : Nat) : Int) := by split <;> rfl
    have t2 : (if j.id = x.dst then (1 : Int) else 0) = ((if j.id = x.dst then 1 else 0 : Nat) : Int) := by split <;> rfl
    rw [t1, t2]
    omega
  · intro y hy z hz h1 h2
    obtain ⟨y0, hy0, i1, i2, i3⟩ := hsd y hy
    obtain ⟨z0, hz0, j1, j2, j3⟩ := hsd z hz
    have := hI.pair y0 hy0 z0 hz0 (by rw [← i2, ← j2, h1]) (by rw [← i3, ← j3, h2])
    exact hidx y hy z hz (by rw [i1, j1, this])
  · intro y hy
    obtain ⟨z, hz, i1, i2, i3⟩ := hsd y hy
    have hmk : ∀ n, (∃ i ∈ w.insts, i.id = n) → ∃ i ∈ w'.insts, i.id = n := by
      rintro n ⟨i, hi, rfl⟩
      rw [ei]
      simp only [refInst, setSh, List.map_map]
      refine ⟨_, List.mem_map_of_mem hi, ?_⟩
      simp only [Function.comp]
      split <;> split <;> rfl
    rw [i2, i3]
    exact ⟨hmk _ (hI.ex z hz).1, hmk _ (hI.ex z hz).2⟩
  · intro y hy
    obtain ⟨z, hz, _, i1⟩ := hmem y hy
    by_cases h : z.id = x.id
    · exact ⟨⟨rid, s, d, x.id⟩, by rw [er]; simp, by rw [i1, h]⟩
    · obtain ⟨r, hr, hrr⟩ := hfull z hz h
      exact ⟨r, by rw [er]; exact List.mem_append_left _ hr, by rw [hrr, i1]⟩

/-! ### deleting a route -/

theorem del_inv {w w' : W} {x x' : Sh} {r : Route} (hI : InvR w) (hF : Full w) (hx : x ∈ w.shs) (hr : r ∈ w.routes) (hrx : r.sh = x.id)
    (e1 : x'.id = x.id) (e2 : x'.src = x.src) (e3 : x'.dst = x.dst) (e4 : x'.refcnt = x.refcnt - 1) (hne : x.refcnt - 1 ≠ 0)
    (es : w'.shs = (setSh w x').shs) (er : w'.routes = w.routes.filter (fun q => q.id ≠ r.id)) (en : w'.next = w.next)
    (ei : w'.insts = (refInst (refInst w x.src (-1)) x.dst (-1)).insts) : InvR w' ∧ Full w' := by
  have hxx := sh_mem hI.ns hx
  have hsh' : ∀ i, sh? w' i = (sh? w i).map (fun y => if y.id = x'.id then x' else y) := by
    intro i
    have : sh? w' i = sh? (setSh w x') i := by simp only [sh?, es]
    rw [this, sh_setSh]
  have hids : w'.shs.map Sh.id = w.shs.map Sh.id := by rw [es]; exact setSh_ids w x'
  have hsrc : ∀ i, (sh? w' i).map (fun y => (y.src, y.dst)) = (sh? w i).map (fun y => (y.src, y.dst)) := by
    intro i
    rw [hsh', Option.map_map]
    cases h : sh? w i with
    | none => rfl
    | some y =>
      simp only [Option.map_some, Function.comp]
      by_cases hy : y.id = x'.id
      · have : y = x := by
          obtain ⟨h1, h2⟩ := sh_some h
          have h3 := sh_mem hI.ns h1
          rw [hy, e1, hxx] at h3
          exact (Option.some.inj h3).symm
        rw [if_pos hy, e2, e3, this]
      · rw [if_neg hy]
  have hpS : ∀ i r, pS w' i r = pS w i r := by
    intro i r
    have := hsrc r.sh
    unfold pS
    cases h1 : sh? w' r.sh with
    | none => cases h2 : sh? w r.sh with
      | none => rfl
      | some y => rw [h1, h2] at this; simp at this
    | some z => cases h2 : sh? w r.sh with
      | none => rw [h1, h2] at this; simp at this
      | some y => rw [h1, h2] at this; simp only [Option.map_some, Option.some.injEq, Prod.mk.injEq] at this; simp only [this.1]
  have hpD : ∀ i r, pD w' i r = pD w i r := by
    intro i r
    have := hsrc r.sh
    unfold pD
    cases h1 : sh? w' r.sh with
    | none => cases h2 : sh? w r.sh with
      | none => rfl
      | some y => rw [h1, h2] at this; simp at this
    | some z => cases h2 : sh? w r.sh with
      | none => rw [h1, h2] at this; simp at this
      | some y => rw [h1, h2] at this; simp only [Option.map_some, Option.some.injEq, Prod.mk.injEq] at this; simp only [this.2]
  have hmem : ∀ y ∈ w'.shs, ∃ z ∈ w.shs, y = (if z.id = x'.id then x' else z) ∧ y.id = z.id := by
    intro y hy
    rw [es] at hy
    obtain ⟨z, hz, rfl⟩ := List.mem_map.1 hy
    refine ⟨z, hz, rfl, ?_⟩
    by_cases h : z.id = x'.id
    · rw [if_pos h, h]
    · rw [if_neg h]
  have hzx : ∀ z ∈ w.shs, z.id = x'.id → z = x := by
    intro z hz h
    have h3 := sh_mem hI.ns hz
    rw [h, e1, hxx] at h3
    exact (Option.some.inj h3).symm
  have hsd : ∀ y ∈ w'.shs, ∃ z ∈ w.shs, y.id = z.id ∧ y.src = z.src ∧ y.dst = z.dst := by
    intro y hy
    obtain ⟨z, hz, h1, h2⟩ := hmem y hy
    refine ⟨z, hz, h2, ?_⟩
    by_cases h : z.id = x'.id
    · rw [if_pos h] at h1
      have := hzx z hz h
      rw [h1, e2, e3, this]; exact ⟨rfl, rfl⟩
    · rw [if_neg h] at h1
      rw [h1]; exact ⟨rfl, rfl⟩
  have hidx : ∀ y ∈ w'.shs, ∀ z ∈ w'.shs, y.id = z.id → y = z := by
    intro y hy z hz h
    have hn : (w'.shs.map Sh.id).Nodup := hids ▸ hI.ns
    have h1 := sh_mem hn hy
    have h2 := sh_mem hn hz
    rw [h, h2] at h1
    exact (Option.some.inj h1).symm
  have hsub : ∀ q ∈ w'.routes, q ∈ w.routes := by
    intro q hq; rw [er] at hq; exact (List.mem_filter.1 hq).1
  have hrx' : sh? w r.sh = some x := by rw [hrx]; exact hxx
  have hcnt' : ∀ y ∈ w'.shs, y.refcnt = (w'.routes.countP (fun r => r.sh == y.id) : Nat) := by
    intro y hy
    obtain ⟨z, hz, h1, h2⟩ := hmem y hy
    have hz' := hI.hcnt z hz
    have hc := countP_remove hI.nr hr (fun q => q.sh == z.id)
    rw [er, h2]
    by_cases h : z.id = x'.id
    · rw [if_pos h] at h1
      have := hzx z hz h
      subst this
      rw [h1, e4, hz']
      simp only [hrx, beq_self_eq_true, if_true] at hc
      omega
    · rw [if_neg h] at h1
      have : ¬ r.sh = z.id := by rw [hrx, ← e1]; exact fun e => h e.symm
      subst h1
      rw [hz']
      have hb : (r.sh == y.id) = false := by simpa using this
      simp only [hb, Bool.false_eq_true, if_false] at hc
      omega
  refine ⟨⟨?_, ?_, ?_, ?_, ?_, ?_, hcnt', ?_, ?_, ?_⟩, ?_⟩
  · rw [er]
    exact hI.nr.sublist (List.Sublist.map _ List.filter_sublist)
  · intro q hq
    rw [en]; exact hI.lr q (hsub q hq)
  · rw [hids]; exact hI.ns
  · intro y hy
    obtain ⟨z, hz, _, h⟩ := hmem y hy
    rw [h, en]; exact hI.ls z hz
  · intro i hi
    rw [ei] at hi
    simp only [refInst, List.map_map] at hi
    obtain ⟨j, hj, rfl⟩ := List.mem_map.1 hi
    rw [en]
    have := hI.li j hj
    simp only [Function.comp]
    split <;> split <;> exact this
  · intro q hq
    obtain ⟨z, hz, hzz⟩ := hI.hsh q (hsub q hq)
    have : z.id ∈ w'.shs.map Sh.id := hids ▸ List.mem_map_of_mem hz
    obtain ⟨y, hy, h⟩ := List.mem_map.1 this
    exact ⟨y, hy, by rw [h, hzz]⟩
  · intro i hi
    rw [ei] at hi
    simp only [refInst, List.map_map] at hi
    obtain ⟨j, hj, rfl⟩ := List.mem_map.1 hi
    have hj' := hI.hi j hj
    have hid : ((fun j => if j.id = x.dst then { j with refcnt := j.refcnt + -1 } else j) ∘ fun j => if j.id = x.src then { j with refcnt := j.refcnt + -1 } else j) j =
        { j with refcnt := j.refcnt - (if j.id = x.src then 1 else 0) - (if j.id = x.dst then 1 else 0) } := by
      simp only [Function.comp]
      by_cases h1 : j.id = x.src
      · rw [if_pos h1, if_pos h1]
        by_cases h2 : j.id = x.dst
        · rw [if_pos (by exact h2), if_pos h2]; rfl
        · rw [if_neg (by exact h2), if_neg h2]; simp; omega
      · rw [if_neg h1, if_neg h1]
        by_cases h2 : j.id = x.dst
        · rw [if_pos h2, if_pos h2]; simp; omega
        · rw [if_neg h2, if_neg h2]; simp
    rw [hid]
    simp only
    rw [hj', uses_eq, uses_eq, er]
    have c1 : ∀ l : List Route, l.countP (pS w' j.id) = l.countP (pS w j.id) := by intro l; congr 1; funext r; exact hpS _ r
    have c2 : ∀ l : List Route, l.countP (pD w' j.id) = l.countP (pD w j.id) := by intro l; congr 1; funext r; exact hpD _ r
    have c3 : pS w j.id r = decide (j.id = x.src) := by
      simp only [pS, hrx']
      by_cases h : x.src = j.id
      · simp [h]
      · have h' : ¬ j.id = x.src := fun e => h e.symm
        simp [h, h']
    have c4 : pD w j.id r = decide (j.id = x.dst) := by
      simp only [pD, hrx']
      by_cases h : x.dst = j.id
      · simp [h]
      · have h' : ¬ j.id = x.dst := fun e => h e.symm
        simp [h, h']
    rw [c1, c2]
    have d1 := countP_remove hI.nr hr (pS w j.id)
    have d2 := countP_remove hI.nr hr (pD w j.id)
    simp only [c3, decide_eq_true_eq] at d1
    simp only [c4, decide_eq_true_eq] at d2
    have t1 : (if j.id = x.src then (1 : Int) else 0) = ((if j.id = x.src then 1 else 0 : Nat) : Int) := by split <;> rfl
    have t2 : (if j.id = x.dst then (1 : Int) else 0) = ((if j.id = x.dst then 1 else 0 : Nat) : Int) := by split <;> rfl
    rw [t1, t2]
    omega
  · intro y hy z hz h1 h2
    obtain ⟨y0, hy0, i1, i2, i3⟩ := hsd y hy
    obtain ⟨z0, hz0, j1, j2, j3⟩ := hsd z hz
    have := hI.pair y0 hy0 z0 hz0 (by rw [← i2, ← j2, h1]) (by rw [← i3, ← j3, h2])
    exact hidx y hy z hz (by rw [i1, j1, this])
  · intro y hy
    obtain ⟨z, hz, i1, i2, i3⟩ := hsd y hy
    have hmk : ∀ n, (∃ i ∈ w.insts, i.id = n) → ∃ i ∈ w'.insts, i.id = n := by
      rintro n ⟨i, hi, rfl⟩
      rw [ei]
      simp only [refInst, List.map_map]
      refine ⟨_, List.mem_map_of_mem hi, ?_⟩
      simp only [Function.comp]
      split <;> split <;> rfl
    rw [i2, i3]
    exact ⟨hmk _ (hI.ex z hz).1, hmk _ (hI.ex z hz).2⟩
  · intro y hy
    have hc := hcnt' y hy
    obtain ⟨z, hz, h1, h2⟩ := hmem y hy
    have hpos : 0 < w'.routes.countP (fun r => r.sh == y.id) := by
      by_cases h : z.id = x'.id
      · rw [if_pos h] at h1
        rw [h1, e4] at hc
        rw [h1]
        omega
      · rw [if_neg h] at h1
        subst h1
        have hz' := hI.hcnt y hz
        obtain ⟨q, hq, hqq⟩ := hF y hz
        have : 0 < w.routes.countP (fun r => r.sh == y.id) := List.countP_pos_iff.2 ⟨q, hq, by simpa using hqq⟩
        omega
    obtain ⟨q, hq, hqq⟩ := List.countP_pos_iff.1 hpos
    exact ⟨q, hq, by simpa using hqq⟩

theorem step_inv {w w' : W} {op : Op} (hI : InvR w) (hF : Full w) (h : step w op = .ok w') : InvR w' ∧ Full w' := by
  cases op with
  | instAdd n b =>
    have := Except.ok.inj h
    subst this
    simp only [instAdd]
    split
    · exact ⟨hI, hF⟩
    · refine ⟨⟨hI.nr, ?_, hI.ns, ?_, ?_, hI.hsh, hI.hcnt, ?_, hI.pair, ?_⟩, hF⟩
      · intro r hr; have := hI.lr r hr; simp only; omega
      · intro r hr; have := hI.ls r hr; simp only; omega
      · intro i hi
        rcases List.mem_append.1 hi with h | h
        · have := hI.li i h; simp only; omega
        · simp only [List.mem_singleton] at h; subst h; simp
      · intro i hi
        rcases List.mem_append.1 hi with h | h
        · exact hI.hi i h
        · simp only [List.mem_singleton] at h; subst h
          have hz : ∀ x ∈ w.shs, x.src ≠ w.next ∧ x.dst ≠ w.next := by
            intro x hx
            obtain ⟨⟨i, hi, h1⟩, j, hj, h2⟩ := hI.ex x hx
            have := hI.li i hi; have := hI.li j hj
            omega
          have u : uses w w.next = 0 := by
            rw [uses_eq]
            have a1 : w.routes.countP (pS w w.next) = 0 := by
              rw [List.countP_eq_zero]
              intro r _
              simp only [pS]
              split
              · rename_i x hx
                have := (hz x (sh_some hx).1).1
                simpa using this
              · simp
            have a2 : w.routes.countP (pD w w.next) = 0 := by
              rw [List.countP_eq_zero]
              intro r _
              simp only [pD]
              split
              · rename_i x hx
                have := (hz x (sh_some hx).1).2
                simpa using this
              · simp
            omega
          exact (by rw [u]; rfl : (0 : Int) = ((uses w w.next : Nat) : Int))
      · intro x hx
        obtain ⟨⟨i, hi, h1⟩, j, hj, h2⟩ := hI.ex x hx
        exact ⟨⟨i, List.mem_append_left _ hi, h1⟩, j, List.mem_append_left _ hj, h2⟩
  | instDel n =>
    simp only [step, instDel] at h
    split at h
    · cases h
    · rename_i i hi
      have him := List.mem_of_find?_eq_some hi
      split at h
      · have := Except.ok.inj h; subst this; exact ⟨hI, hF⟩
      · rename_i hr
        have := Except.ok.inj h; subst this
        have hrc := hI.hi i him
        have hu : uses w i.id = 0 := by omega
        have hnu : ∀ x ∈ w.shs, x.src ≠ i.id ∧ x.dst ≠ i.id := by
          intro x hx
          obtain ⟨r, hr, hrx⟩ := hF x hx
          have hsx : sh? w r.sh = some x := by rw [hrx]; exact sh_mem hI.ns hx
          rw [uses_eq] at hu
          have a1 : w.routes.countP (pS w i.id) = 0 := by omega
          have a2 : w.routes.countP (pD w i.id) = 0 := by omega
          rw [List.countP_eq_zero] at a1 a2
          have b1 := a1 r hr
          have b2 := a2 r hr
          simp only [pS, hsx] at b1
          simp only [pD, hsx] at b2
          exact ⟨by simpa using b1, by simpa using b2⟩
        have hsub : ∀ j ∈ w.insts.filter (fun j => decide (j.id ≠ i.id)), j ∈ w.insts := fun j hj => (List.mem_filter.1 hj).1
        refine ⟨⟨hI.nr, hI.lr, hI.ns, hI.ls, ?_, hI.hsh, hI.hcnt, ?_, hI.pair, ?_⟩, hF⟩
        · intro j hj; exact hI.li j (hsub j hj)
        · intro j hj; exact hI.hi j (hsub j hj)
        · intro x hx
          obtain ⟨⟨j, hj, h1⟩, k, hk, h2⟩ := hI.ex x hx
          obtain ⟨n1, n2⟩ := hnu x hx
          refine ⟨⟨j, List.mem_filter.2 ⟨hj, ?_⟩, h1⟩, k, List.mem_filter.2 ⟨hk, ?_⟩, h2⟩
          · rw [h1]; simpa using n1
          · rw [h2]; simpa using n2
  | routeAdd sn s dn d o =>
    have := Except.ok.inj h
    subst this
    simp only [routeAdd]
    split
    · exact ⟨hI, hF⟩
    · rename_i a b ha
      obtain ⟨ham, hbm, _⟩ := args_mem ha
      split
      · rename_i r x hfr
        obtain ⟨hr, hx, hxs, hxd⟩ := firstRoute_some hfr
        split
        · exact ⟨hI, hF⟩
        · have hI' : InvR { w with next := w.next + 1 } :=
            ⟨hI.nr, fun r hr => Nat.lt_succ_of_lt (hI.lr r hr), hI.ns, fun r hr => Nat.lt_succ_of_lt (hI.ls r hr),
              fun r hr => Nat.lt_succ_of_lt (hI.li r hr), hI.hsh, hI.hcnt, hI.hi, hI.pair, hI.ex⟩
          refine add_inv hI' (sh_some hx).1 hxs hxd ?_ (by simp) (fun y hy _ => hF y hy)
          intro q hq he
          have := hI.lr q hq
          omega
      · rename_i hfr
        have hnone := firstRoute_none hfr
        split
        · -- a new shared object
          generalize hxdef : (⟨w.next + 1, a.id, b.id, 0, fun _ => false, fun _ => 0, fun _ => false, fun _ => 0, w.next⟩ : Sh) = x
          have x1 : x.id = w.next + 1 := by rw [← hxdef]
          have x2 : x.src = a.id := by rw [← hxdef]
          have x3 : x.dst = b.id := by rw [← hxdef]
          have x4 : x.refcnt = 0 := by rw [← hxdef]
          have hold : ∀ r ∈ w.routes, sh? { w with shs := w.shs ++ [x], next := w.next + 2 } r.sh = sh? w r.sh := by
            intro r hr
            obtain ⟨y, hy, hyr⟩ := hI.hsh r hr
            have h1 : sh? w r.sh = some y := by rw [← hyr]; exact sh_mem hI.ns hy
            have h2 : w.shs.find? (fun z => decide (z.id = r.sh)) = some y := h1
            simp only [sh?, List.find?_append, h2]
            rfl
          have hI' : InvR { w with shs := w.shs ++ [x], next := w.next + 2 } := by
            refine ⟨hI.nr, ?_, ?_, ?_, ?_, ?_, ?_, ?_, ?_, ?_⟩
            · intro r hr; have := hI.lr r hr; simp only; omega
            · rw [List.map_append, List.nodup_append]
              refine ⟨hI.ns, by simp, ?_⟩
              intro i hi j hj
              obtain ⟨y, hy, rfl⟩ := List.mem_map.1 hi
              simp only [List.map_cons, List.map_nil, List.mem_singleton] at hj
              have := hI.ls y hy
              omega
            · intro y hy
              rcases List.mem_append.1 hy with h | h
              · have := hI.ls y h; simp only; omega
              · simp only [List.mem_singleton] at h; subst h; simp only; omega
            · intro i hi; have := hI.li i hi; simp only; omega
            · intro r hr
              obtain ⟨y, hy, h⟩ := hI.hsh r hr
              exact ⟨y, List.mem_append_left _ hy, h⟩
            · intro y hy
              rcases List.mem_append.1 hy with h | h
              · exact hI.hcnt y h
              · simp only [List.mem_singleton] at h; subst h
                rw [x4]
                have : w.routes.countP (fun r => r.sh == y.id) = 0 := by
                  rw [List.countP_eq_zero]
                  intro r hr he
                  obtain ⟨z, hz, hzr⟩ := hI.hsh r hr
                  have := hI.ls z hz
                  have he' : r.sh = y.id := by simpa using he
                  omega
                simp only [this]
                rfl
            · intro i hi
              have := hI.hi i hi
              rw [this]
              congr 1
              rw [uses_eq, uses_eq]
              have a1 : w.routes.countP (pS { w with shs := w.shs ++ [x], next := w.next + 2 } i.id) = w.routes.countP (pS w i.id) := by
                apply List.countP_congr
                intro r hr
                simp only [pS, hold r hr]
              have a2 : w.routes.countP (pD { w with shs := w.shs ++ [x], next := w.next + 2 } i.id) = w.routes.countP (pD w i.id) := by
                apply List.countP_congr
                intro r hr
                simp only [pD, hold r hr]
              exact (by rw [a1, a2])
            · have hdiff : ∀ y ∈ w.shs, ¬ (y.src = x.src ∧ y.dst = x.dst) := by
                intro y hy hc
                obtain ⟨r, hr, hrx⟩ := hF y hy
                refine hnone r hr y (by rw [hrx]; exact sh_mem hI.ns hy) ⟨by rw [hc.1, x2], by rw [hc.2, x3]⟩
              intro y hy z hz h1 h2
              rcases List.mem_append.1 hy with h | h <;> rcases List.mem_append.1 hz with h' | h'
              · exact hI.pair y h z h' h1 h2
              · simp only [List.mem_singleton] at h'; subst h'
                exact absurd ⟨h1, h2⟩ (hdiff y h)
              · simp only [List.mem_singleton] at h; subst h
                exact absurd ⟨h1.symm, h2.symm⟩ (hdiff z h')
              · simp only [List.mem_singleton] at h h'; rw [h, h']
            · intro y hy
              rcases List.mem_append.1 hy with h | h
              · exact hI.ex y h
              · simp only [List.mem_singleton] at h; subst h
                exact ⟨⟨a, ham, x2.symm⟩, b, hbm, x3.symm⟩
          refine add_inv hI' (List.mem_append_right _ (List.mem_singleton.2 rfl)) x2 x3 ?_ (by simp only; omega) ?_
          · intro q hq he
            have := hI.lr q hq
            omega
          · intro y hy hne
            rcases List.mem_append.1 hy with h | h
            · exact hF y h
            · simp only [List.mem_singleton] at h; rw [h] at hne; exact absurd rfl hne
        · exact ⟨hI, hF⟩
  | routeDel sn s dn d =>
    simp only [step, routeDel] at h
    split at h
    · have := Except.ok.inj h; subst this; exact ⟨hI, hF⟩
    · rename_i a b ha
      split at h
      · have := Except.ok.inj h; subst this; exact ⟨hI, hF⟩
      · rename_i r x hfr
        obtain ⟨hr, hx, hxs, hxd, _, _⟩ := theRoute_some hfr
        obtain ⟨hxm, hxi⟩ := sh_some hx
        split at h
        · cases h
        · rename_i hne
          have := Except.ok.inj h
          subst this
          let x' : Sh := ⟨x.id, x.src, x.dst, x.refcnt - 1, upd x.smap (BitVec.ofNat 8 s) false, upd x.sid (BitVec.ofNat 8 s) 0, upd x.dmap (BitVec.ofNat 8 d) false, upd x.did (BitVec.ofNat 8 d) 0, x.link⟩
          exact del_inv (x' := x') hI hF hxm hr hxi.symm rfl rfl rfl rfl hne rfl rfl rfl rfl
  | accept rid =>
    simp only [step, accept] at h
    cases hx : routeSh w rid with
    | error e => rw [hx] at h; cases h
    | ok x =>
      rw [hx] at h
      have := Except.ok.inj h
      subst this
      exact ⟨⟨hI.nr, fun r hr => Nat.lt_succ_of_lt (hI.lr r hr), hI.ns, fun r hr => Nat.lt_succ_of_lt (hI.ls r hr),
              fun r hr => Nat.lt_succ_of_lt (hI.li r hr), hI.hsh, hI.hcnt, hI.hi, hI.pair, hI.ex⟩, hF⟩
  | srcClosed c =>
    have := Except.ok.inj h
    subst this
    exact ⟨⟨hI.nr, hI.lr, hI.ns, hI.ls, hI.li, hI.hsh, hI.hcnt, hI.hi, hI.pair, hI.ex⟩, hF⟩

theorem init_inv : InvR init ∧ Full init := by
  refine ⟨⟨?_, ?_, ?_, ?_, ?_, ?_, ?_, ?_, ?_, ?_⟩, ?_⟩ <;> simp [init, Full]

theorem run_inv {w w' : W} {ops : List Op} (hI : InvR w) (hF : Full w) (h : run w ops = .ok w') : InvR w' ∧ Full w' := by
  induction ops generalizing w with
  | nil => have := Except.ok.inj h; subst this; exact ⟨hI, hF⟩
  | cons op ops ih =>
    simp only [run] at h
    cases hs : step w op with
    | error e => rw [hs] at h; cases h
    | ok w1 =>
      rw [hs, bind_ok] at h
      obtain ⟨h1, h2⟩ := step_inv hI hF hs
      exact ih h1 h2 h

end Verif.IpaProxy
