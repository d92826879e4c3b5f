import Verif.Proof.IpaProxy
/-!
# C54, C55, C107-C109: the IPA proxy
-/
set_option maxRecDepth 10000
namespace Verif.IpaProxy

/-- the maps of a shared object agree with the list of routes, and no stream is used twice -/
structure Map (rs : List Route) (x : Sh) : Prop where
  sm : ∀ s, x.smap s = true ↔ ∃ r ∈ rs, r.sh = x.id ∧ r.s = s
  dm : ∀ d, x.dmap d = true ↔ ∃ r ∈ rs, r.sh = x.id ∧ r.d = d
  si : ∀ r ∈ rs, r.sh = x.id → x.sid r.s = r.d
  di : ∀ r ∈ rs, r.sh = x.id → x.did r.d = r.s
  s0 : ∀ s, (∀ r ∈ rs, r.sh = x.id → r.s ≠ s) → x.sid s = 0
  d0 : ∀ d, (∀ r ∈ rs, r.sh = x.id → r.d ≠ d) → x.did d = 0
  us : ∀ r ∈ rs, ∀ q ∈ rs, r.sh = x.id → q.sh = x.id → r.s = q.s → r = q
  ud : ∀ r ∈ rs, ∀ q ∈ rs, r.sh = x.id → q.sh = x.id → r.d = q.d → r = q

def InvM (w : W) : Prop := ∀ x ∈ w.shs, Map w.routes x

/-- objects whose routes and maps are unchanged -/
theorem Map.congr {rs rs' : List Route} {x : Sh} (h : Map rs x) (he : ∀ r, r.sh = x.id → (r ∈ rs' ↔ r ∈ rs)) : Map rs' x := by
  constructor
  · intro s
    rw [h.sm]
    exact ⟨fun ⟨r, hr, a, b⟩ => ⟨r, (he r a).2 hr, a, b⟩, fun ⟨r, hr, a, b⟩ => ⟨r, (he r a).1 hr, a, b⟩⟩
  · intro s
    rw [h.dm]
    exact ⟨fun ⟨r, hr, a, b⟩ => ⟨r, (he r a).2 hr, a, b⟩, fun ⟨r, hr, a, b⟩ => ⟨r, (he r a).1 hr, a, b⟩⟩
  · intro r hr a; exact h.si r ((he r a).1 hr) a
  · intro r hr a; exact h.di r ((he r a).1 hr) a
  · intro s hs; exact h.s0 s (fun r hr a => hs r ((he r a).2 hr) a)
  · intro s hs; exact h.d0 s (fun r hr a => hs r ((he r a).2 hr) a)
  · intro r hr q hq a b; exact h.us r ((he r a).1 hr) q ((he q b).1 hq) a b
  · intro r hr q hq a b; exact h.ud r ((he r a).1 hr) q ((he q b).1 hq) a b

theorem upd_same {β : Type} (f : Byte → β) (i : Byte) (v : β) : upd f i v i = v := if_pos rfl
theorem upd_ne {β : Type} (f : Byte → β) {i j : Byte} (v : β) (h : j ≠ i) : upd f i v j = f j := if_neg h

theorem Map.add {rs : List Route} {x : Sh} (h : Map rs x) {s d : Byte} {rid a b : Nat}
    (hno : ∀ r ∈ rs, r.sh = x.id → r.s ≠ s ∧ r.d ≠ d) :
    Map (rs ++ [⟨rid, s, d, x.id⟩]) (⟨x.id, a, b, x.refcnt + 1, upd x.smap s true, upd x.sid s d, upd x.dmap d true, upd x.did d s, x.link⟩ : Sh) := by
  have hcase : ∀ r, r ∈ rs ++ [⟨rid, s, d, x.id⟩] → r ∈ rs ∨ r = ⟨rid, s, d, x.id⟩ := by
    intro r hr
    rcases List.mem_append.1 hr with h | h
    · exact .inl h
    · exact .inr (List.mem_singleton.1 h)
  have hnew : (⟨rid, s, d, x.id⟩ : Route) ∈ rs ++ [⟨rid, s, d, x.id⟩] := by simp
  constructor
  · intro t
    simp only
    by_cases ht : t = s
    · subst ht
      rw [upd_same]
      exact ⟨fun _ => ⟨_, hnew, rfl, rfl⟩, fun _ => rfl⟩
    · rw [upd_ne _ _ ht, h.sm]
      constructor
      · rintro ⟨r, hr, h1, h2⟩; exact ⟨r, List.mem_append_left _ hr, h1, h2⟩
      · rintro ⟨r, hr, h1, h2⟩
        rcases hcase r hr with h | h
        · exact ⟨r, h, h1, h2⟩
        · subst h; exact absurd h2.symm ht
  · intro t
    simp only
    by_cases ht : t = d
    · subst ht
      rw [upd_same]
      exact ⟨fun _ => ⟨_, hnew, rfl, rfl⟩, fun _ => rfl⟩
    · rw [upd_ne _ _ ht, h.dm]
      constructor
      · rintro ⟨r, hr, h1, h2⟩; exact ⟨r, List.mem_append_left _ hr, h1, h2⟩
      · rintro ⟨r, hr, h1, h2⟩
        rcases hcase r hr with h | h
        · exact ⟨r, h, h1, h2⟩
        · subst h; exact absurd h2.symm ht
  · intro r hr hx
    simp only
    rcases hcase r hr with h' | h'
    · rw [upd_ne _ _ (hno r h' hx).1]; exact h.si r h' hx
    · subst h'; exact upd_same _ _ _
  · intro r hr hx
    simp only
    rcases hcase r hr with h' | h'
    · rw [upd_ne _ _ (hno r h' hx).2]; exact h.di r h' hx
    · subst h'; exact upd_same _ _ _
  · intro t ht
    have h1 : t ≠ s := fun e => ht _ hnew rfl e.symm
    simp only
    rw [upd_ne _ _ h1]
    exact h.s0 t (fun r hr hx => ht r (List.mem_append_left _ hr) hx)
  · intro t ht
    have h1 : t ≠ d := fun e => ht _ hnew rfl e.symm
    simp only
    rw [upd_ne _ _ h1]
    exact h.d0 t (fun r hr hx => ht r (List.mem_append_left _ hr) hx)
  · intro r hr q hq h1 h2 he
    rcases hcase r hr with h' | h' <;> rcases hcase q hq with h'' | h''
    · exact h.us r h' q h'' h1 h2 he
    · subst h''; exact absurd he (hno r h' h1).1
    · subst h'; exact absurd he.symm (hno q h'' h2).1
    · rw [h', h'']
  · intro r hr q hq h1 h2 he
    rcases hcase r hr with h' | h' <;> rcases hcase q hq with h'' | h''
    · exact h.ud r h' q h'' h1 h2 he
    · subst h''; exact absurd he (hno r h' h1).2
    · subst h'; exact absurd he.symm (hno q h'' h2).2
    · rw [h', h'']

theorem Map.del {rs : List Route} {x : Sh} (h : Map rs x) {r : Route} (hr : r ∈ rs) (hx : r.sh = x.id) (hn : ∀ q ∈ rs, q.id = r.id → q = r) :
    Map (rs.filter (fun q => q.id ≠ r.id)) ⟨x.id, x.src, x.dst, x.refcnt - 1, upd x.smap r.s false, upd x.sid r.s 0, upd x.dmap r.d false, upd x.did r.d 0, x.link⟩ := by
  have hm : ∀ q, q ∈ rs.filter (fun q => decide (q.id ≠ r.id)) ↔ q ∈ rs ∧ q ≠ r := by
    intro q
    rw [List.mem_filter]
    constructor
    · rintro ⟨h1, h2⟩
      exact ⟨h1, by rintro rfl; simp at h2⟩
    · rintro ⟨h1, h2⟩
      refine ⟨h1, ?_⟩
      have : q.id ≠ r.id := fun e => h2 (hn q h1 e)
      simpa using this
  have hsne : ∀ q, q ∈ rs → q ≠ r → q.sh = x.id → q.s ≠ r.s ∧ q.d ≠ r.d := by
    intro q hq hne hqx
    exact ⟨fun e => hne (h.us q hq r hr hqx hx e), fun e => hne (h.ud q hq r hr hqx hx e)⟩
  constructor
  · intro t
    simp only
    by_cases ht : t = r.s
    · subst ht
      rw [upd_same]
      constructor
      · intro hf; cases hf
      · rintro ⟨q, hq, h1, h2⟩
        obtain ⟨h3, h4⟩ := (hm q).1 hq
        exact absurd h2 (hsne q h3 h4 h1).1
    · rw [upd_ne _ _ ht, h.sm]
      constructor
      · rintro ⟨q, hq, h1, h2⟩
        exact ⟨q, (hm q).2 ⟨hq, by rintro rfl; exact ht h2.symm⟩, h1, h2⟩
      · rintro ⟨q, hq, h1, h2⟩
        exact ⟨q, ((hm q).1 hq).1, h1, h2⟩
  · intro t
    simp only
    by_cases ht : t = r.d
    · subst ht
      rw [upd_same]
      constructor
      · intro hf; cases hf
      · rintro ⟨q, hq, h1, h2⟩
        obtain ⟨h3, h4⟩ := (hm q).1 hq
        exact absurd h2 (hsne q h3 h4 h1).2
    · rw [upd_ne _ _ ht, h.dm]
      constructor
      · rintro ⟨q, hq, h1, h2⟩
        exact ⟨q, (hm q).2 ⟨hq, by rintro rfl; exact ht h2.symm⟩, h1, h2⟩
      · rintro ⟨q, hq, h1, h2⟩
        exact ⟨q, ((hm q).1 hq).1, h1, h2⟩
  · intro q hq hqx
    obtain ⟨h3, h4⟩ := (hm q).1 hq
    simp only
    rw [upd_ne _ _ (hsne q h3 h4 hqx).1]; exact h.si q h3 hqx
  · intro q hq hqx
    obtain ⟨h3, h4⟩ := (hm q).1 hq
    simp only
    rw [upd_ne _ _ (hsne q h3 h4 hqx).2]; exact h.di q h3 hqx
  · intro t ht
    simp only
    by_cases he : t = r.s
    · subst he; exact upd_same _ _ _
    · rw [upd_ne _ _ he]
      refine h.s0 t ?_
      intro q hq hqx hqs
      exact ht q ((hm q).2 ⟨hq, by rintro rfl; exact he hqs.symm⟩) hqx hqs
  · intro t ht
    simp only
    by_cases he : t = r.d
    · subst he; exact upd_same _ _ _
    · rw [upd_ne _ _ he]
      refine h.d0 t ?_
      intro q hq hqx hqs
      exact ht q ((hm q).2 ⟨hq, by rintro rfl; exact he hqs.symm⟩) hqx hqs
  · intro a ha b hb h1 h2 he
    exact h.us a ((hm a).1 ha).1 b ((hm b).1 hb).1 h1 h2 he
  · intro a ha b hb h1 h2 he
    exact h.ud a ((hm a).1 ha).1 b ((hm b).1 hb).1 h1 h2 he

theorem nodup_inj {l : List Route} (hn : (l.map Route.id).Nodup) {r q : Route} (hr : r ∈ l) (hq : q ∈ l) (h : q.id = r.id) : q = r := by
  induction l with
  | nil => simp at hr
  | cons a l ih =>
    simp only [List.map_cons, List.nodup_cons] at hn
    rcases List.mem_cons.1 hr with rfl | hr' <;> rcases List.mem_cons.1 hq with rfl | hq'
    · rfl
    · exact absurd (h ▸ List.mem_map_of_mem hq') hn.1
    · exact absurd (h ▸ List.mem_map_of_mem hr') hn.1
    · exact ih hn.2 hr' hq'

theorem setSh_mem {w : W} {x' y : Sh} (h : y ∈ (setSh w x').shs) : (y = x' ∧ ∃ z ∈ w.shs, z.id = x'.id) ∨ (y ∈ w.shs ∧ y.id ≠ x'.id) := by
  obtain ⟨z, hz, he⟩ := List.mem_map.1 h
  by_cases hi : z.id = x'.id
  · rw [if_pos hi] at he; exact .inl ⟨he.symm, z, hz, hi⟩
  · rw [if_neg hi] at he; subst he; exact .inr ⟨hz, hi⟩

theorem add_M {w : W} {a b : Nat} {s d : Byte} {x : Sh} {rid : Nat} (hM : ∀ y ∈ w.shs, Map w.routes y) (hx : Map w.routes x)
    (hno : ∀ r ∈ w.routes, r.sh = x.id → r.s ≠ s ∧ r.d ≠ d) : InvM (addFinish w a b s d x rid) := by
  intro y hy
  have hy' : y ∈ (setSh w (⟨x.id, a, b, x.refcnt + 1, upd x.smap s true, upd x.sid s d, upd x.dmap d true, upd x.did d s, x.link⟩ : Sh)).shs := hy
  have hr : (addFinish w a b s d x rid).routes = w.routes ++ [⟨rid, s, d, x.id⟩] := rfl
  rw [hr]
  rcases setSh_mem hy' with ⟨rfl, _⟩ | ⟨h1, h2⟩
  · exact hx.add hno
  · refine (hM y h1).congr ?_
    intro r hrs
    constructor
    · intro h
      rcases List.mem_append.1 h with h | h
      · exact h
      · rw [List.mem_singleton] at h
        subst h
        exact absurd hrs.symm h2
    · intro h; exact List.mem_append_left _ h

/-- every admissible command succeeds and keeps the invariants -/
theorem step_M {w : W} {op : Op} (hI : InvR w) (hF : Full w) (hM : InvM w) (ha : Adm w op) : ∃ w', step w op = .ok w' ∧ InvM w' := by
  cases op with
  | instAdd n b =>
    refine ⟨_, rfl, ?_⟩
    simp only [instAdd]
    split <;> exact hM
  | instDel n =>
    obtain ⟨i, hi, hn⟩ := ha
    simp only [step, instDel]
    cases hf : w.insts.find? (fun i => nameEq i.name n) with
    | none => exact absurd hn (by simpa using List.find?_eq_none.1 hf i hi)
    | some j =>
      simp only
      by_cases hc : 0 < j.refcnt
      · rw [if_pos hc]; exact ⟨w, rfl, hM⟩
      · rw [if_neg hc]; exact ⟨_, rfl, hM⟩
  | routeAdd sn s dn d o =>
    refine ⟨_, rfl, ?_⟩
    simp only [routeAdd]
    split
    · exact hM
    · rename_i a b hab
      have hno := ha a b hab
      split
      · rename_i r x hfr
        obtain ⟨hr, hx, hxs, hxd⟩ := firstRoute_some hfr
        obtain ⟨hxm, hxi⟩ := sh_some hx
        split
        · exact hM
        · refine add_M (w := { w with next := w.next + 1 }) hM (hM x hxm) ?_
          intro q hq hqx
          exact hno q.s q.d ⟨q, hq, x, hxm, hqx.symm, hxs, hxd, rfl, rfl⟩
      · rename_i hfr
        split
        · have hempty : ∀ r ∈ w.routes, r.sh ≠ w.next + 1 := by
            intro r hr he
            obtain ⟨y, hy, h⟩ := hI.hsh r hr
            have := hI.ls y hy
            omega
          have hnew : Map w.routes ⟨w.next + 1, a.id, b.id, 0, fun _ => false, fun _ => 0, fun _ => false, fun _ => 0, w.next⟩ := by
            constructor
            · intro t; exact ⟨fun h => (by cases h), fun ⟨r, hr, h1, _⟩ => absurd h1 (hempty r hr)⟩
            · intro t; exact ⟨fun h => (by cases h), fun ⟨r, hr, h1, _⟩ => absurd h1 (hempty r hr)⟩
            · intro r hr h1; exact absurd h1 (hempty r hr)
            · intro r hr h1; exact absurd h1 (hempty r hr)
            · intro t _; rfl
            · intro t _; rfl
            · intro r hr q _ h1; exact absurd h1 (hempty r hr)
            · intro r hr q _ h1; exact absurd h1 (hempty r hr)
          refine add_M (w := { w with shs := w.shs ++ [⟨w.next + 1, a.id, b.id, 0, fun _ => false, fun _ => 0, fun _ => false, fun _ => 0, w.next⟩], next := w.next + 2 }) ?_ hnew ?_
          · intro y hy
            rcases List.mem_append.1 hy with h | h
            · exact hM y h
            · rw [List.mem_singleton] at h; subst h; exact hnew
          · intro r hr h1; exact absurd h1 (hempty r hr)
        · exact hM
  | routeDel sn s dn d =>
    simp only [step, routeDel]
    cases hab : args w sn s dn d with
    | none => exact ⟨w, rfl, hM⟩
    | some ab =>
      obtain ⟨a, b⟩ := ab
      simp only
      cases hfr : theRoute w a.id b.id (BitVec.ofNat 8 s) (BitVec.ofNat 8 d) with
      | none => exact ⟨w, rfl, hM⟩
      | some rx =>
        obtain ⟨r, x⟩ := rx
        obtain ⟨hr, hx, hxs, hxd, hrs, hrd⟩ := theRoute_some hfr
        obtain ⟨hxm, hxi⟩ := sh_some hx
        obtain ⟨s', d', ⟨q, hq, y, hy, hyi, hys, hyd, hqs, hqd⟩, hdiff⟩ := ha a b hab
        have hyx : y = x := hI.pair y hy x hxm (by rw [hys, hxs]) (by rw [hyd, hxd])
        subst hyx
        have hqr : q ≠ r := by
          rintro rfl
          rcases hdiff with h | h
          · exact h (by rw [← hqs, hrs])
          · exact h (by rw [← hqd, hrd])
        have hcnt := hI.hcnt y hxm
        have hc := countP_remove hI.nr hr (fun z => z.sh == y.id)
        have hpos : 0 < (w.routes.filter (fun z => z.id ≠ r.id)).countP (fun z => z.sh == y.id) := by
          refine List.countP_pos_iff.2 ⟨q, List.mem_filter.2 ⟨hq, ?_⟩, by simpa using hyi.symm⟩
          have : q.id ≠ r.id := fun e => hqr (nodup_inj hI.nr hr hq e)
          simpa using this
        have hb : (r.sh == y.id) = true := by simpa using hxi.symm
        simp only [hb, if_true] at hc
        have hne : ¬ (y.refcnt - 1 = 0) := by omega
        simp only [if_neg hne, bind_ok]
        refine ⟨_, rfl, ?_⟩
        intro z hz
        have hz' : z ∈ (setSh { w with routes := w.routes.filter (fun q => q.id ≠ r.id) } ⟨y.id, y.src, y.dst, y.refcnt - 1, upd y.smap (BitVec.ofNat 8 s) false, upd y.sid (BitVec.ofNat 8 s) 0, upd y.dmap (BitVec.ofNat 8 d) false, upd y.did (BitVec.ofNat 8 d) 0, y.link⟩).shs := hz
        show Map (w.routes.filter (fun q => q.id ≠ r.id)) z
        rw [← hrs, ← hrd] at hz'
        rcases setSh_mem hz' with ⟨rfl, _⟩ | ⟨h1, h2⟩
        · exact (hM y hxm).del hr hxi.symm (fun q hq e => nodup_inj hI.nr hr hq e)
        · refine (hM z h1).congr ?_
          intro t ht
          rw [List.mem_filter]
          constructor
          · exact fun h => h.1
          · intro h
            refine ⟨h, ?_⟩
            have : t.id ≠ r.id := by
              intro e
              have := nodup_inj hI.nr hr h e
              subst this
              exact h2 (by rw [← ht, ← hxi])
            simpa using this
  | accept rid =>
    obtain ⟨r, hr, hri⟩ := ha
    obtain ⟨x, hx, hxi⟩ := hI.hsh r hr
    have h1 : w.routes.find? (fun q => decide (q.id = rid)) = some r := by
      cases hf : w.routes.find? (fun q => decide (q.id = rid)) with
      | none => exact absurd (List.find?_eq_none.1 hf r hr) (by simpa using hri)
      | some q =>
        have h2 := List.find?_some hf
        have h3 := List.mem_of_find?_eq_some hf
        rw [nodup_inj hI.nr hr h3 (by rw [hri]; simpa using h2)]
    have h2 : routeSh w rid = .ok x := by
      simp only [routeSh, h1, shGet]
      have : sh? w r.sh = some x := by rw [← hxi]; exact sh_mem hI.ns hx
      rw [this]
    exact ⟨{ w with conns := w.conns ++ [⟨w.next, rid, true⟩], next := w.next + 1 }, by simp only [step, accept, h2, bind_ok], hM⟩
  | srcClosed c => exact ⟨_, rfl, hM⟩

theorem run_M {w : W} {ops : List Op} (hI : InvR w) (hF : Full w) (hM : InvM w) (ha : AdmRun w ops) :
    ∃ w', run w ops = .ok w' ∧ InvR w' ∧ Full w' ∧ InvM w' := by
  induction ops generalizing w with
  | nil => exact ⟨w, rfl, hI, hF, hM⟩
  | cons op ops ih =>
    obtain ⟨w1, h1, hM1⟩ := step_M hI hF hM ha.1
    obtain ⟨hI1, hF1⟩ := step_inv hI hF h1
    obtain ⟨w2, h2, h3⟩ := ih hI1 hF1 hM1 (ha.2 _ h1)
    exact ⟨w2, by simp only [run, h1, bind_ok, h2], h3⟩

theorem routeSh_ok {w : W} (hI : InvR w) {r : Route} (hr : r ∈ w.routes) : ∃ x ∈ w.shs, x.id = r.sh ∧ routeSh w r.id = .ok x := by
  obtain ⟨x, hx, hxi⟩ := hI.hsh r hr
  refine ⟨x, hx, hxi, ?_⟩
  have h1 : w.routes.find? (fun q => decide (q.id = r.id)) = some r := by
    cases hf : w.routes.find? (fun q => decide (q.id = r.id)) with
    | none => exact absurd (List.find?_eq_none.1 hf r hr) (by simp)
    | some q =>
      have h2 := List.find?_some hf
      have h3 := List.mem_of_find?_eq_some hf
      rw [nodup_inj hI.nr hr h3 (by simpa using h2)]
  simp only [routeSh, h1, shGet]
  have : sh? w r.sh = some x := by rw [← hxi]; exact sh_mem hI.ns hx
  rw [this]

/-! ### C54: forwarding -/

/-- what really happens, for admissible histories: a message from the source side is dropped exactly if its stream has no
route; otherwise it is forwarded, with the stream *whose* route leads to this stream number, or 0.  The same in the other
direction. -/
theorem C54_forwarding (ops : List Op) (ha : AdmRun init ops) :
    ∃ w, run init ops = .ok w ∧ ∀ c r x, r ∈ w.routes → r.id = c.route → x ∈ w.shs → x.id = r.sh → ∀ p,
      ((∀ d, ¬ HasRoute w x.src x.dst p d) → srcCb w c p = .ok .dropped) ∧
      (∀ d s', HasRoute w x.src x.dst p d → HasRoute w x.src x.dst s' p → srcCb w c p = .ok (.toDst s')) ∧
      (∀ d, HasRoute w x.src x.dst p d → (∀ s', ¬ HasRoute w x.src x.dst s' p) → srcCb w c p = .ok (.toDst 0)) ∧
      ((∀ s, ¬ HasRoute w x.src x.dst s p) → dstCb w c p = .ok .dropped) ∧
      (∀ s d', c.src = true → HasRoute w x.src x.dst s p → HasRoute w x.src x.dst p d' → dstCb w c p = .ok (.toSrc d')) ∧
      (∀ s, c.src = true → HasRoute w x.src x.dst s p → (∀ d', ¬ HasRoute w x.src x.dst p d') → dstCb w c p = .ok (.toSrc 0)) := by
  obtain ⟨w, h1, hI, hF, hM⟩ := run_M init_inv.1 init_inv.2 (by intro x hx; simp [init] at hx) ha
  refine ⟨w, h1, ?_⟩
  intro c r x hr hrc hx hxr p
  have hxx : routeSh w c.route = .ok x := by
    obtain ⟨y, hy, hyr, h⟩ := routeSh_ok hI hr
    have : y = x := by
      have a1 := sh_mem hI.ns hy
      have a2 := sh_mem hI.ns hx
      rw [hyr, ← hxr, a2] at a1
      exact (Option.some.inj a1).symm
    rw [← hrc, h, this]
  have m := hM x hx
  -- a route of this pair of instances belongs to x
  have hown : ∀ s d, HasRoute w x.src x.dst s d ↔ ∃ q ∈ w.routes, q.sh = x.id ∧ q.s = s ∧ q.d = d := by
    intro s d
    constructor
    · rintro ⟨q, hq, y, hy, hyi, hys, hyd, h2, h3⟩
      have := hI.pair y hy x hx hys hyd
      subst this
      exact ⟨q, hq, hyi.symm, h2, h3⟩
    · rintro ⟨q, hq, hqx, h2, h3⟩
      exact ⟨q, hq, x, hx, hqx.symm, rfl, rfl, h2, h3⟩
  have hS : ∀ d, HasRoute w x.src x.dst p d → x.smap p = true := by
    intro d h
    obtain ⟨q, hq, a1, a2, a3⟩ := (hown p d).1 h
    exact (m.sm p).2 ⟨q, hq, a1, a2⟩
  have hD : ∀ s, HasRoute w x.src x.dst s p → x.dmap p = true := by
    intro s h
    obtain ⟨q, hq, a1, a2, a3⟩ := (hown s p).1 h
    exact (m.dm p).2 ⟨q, hq, a1, a3⟩
  refine ⟨?_, ?_, ?_, ?_, ?_, ?_⟩
  · intro h
    have : x.smap p = false := by
      rw [Bool.eq_false_iff]
      intro ht
      obtain ⟨q, hq, a1, a2⟩ := (m.sm p).1 ht
      exact h q.d ((hown p q.d).2 ⟨q, hq, a1, a2, rfl⟩)
    simp only [srcCb, hxx, bind_ok, this]
    rfl
  · intro d s' h h'
    obtain ⟨q, hq, a1, a2, a3⟩ := (hown s' p).1 h'
    have := m.di q hq a1
    rw [a3, a2] at this
    simp only [srcCb, hxx, bind_ok, hS d h, if_true, this]
  · intro d h h'
    have : x.did p = 0 := m.d0 p (fun q hq a1 a2 => h' q.s ((hown q.s p).2 ⟨q, hq, a1, rfl, a2⟩))
    simp only [srcCb, hxx, bind_ok, hS d h, if_true, this]
  · intro h
    have : x.dmap p = false := by
      rw [Bool.eq_false_iff]
      intro ht
      obtain ⟨q, hq, a1, a2⟩ := (m.dm p).1 ht
      exact h q.s ((hown q.s p).2 ⟨q, hq, a1, rfl, a2⟩)
    simp only [dstCb, hxx, bind_ok, this]
    rfl
  · intro s d' hc h h'
    obtain ⟨q, hq, a1, a2, a3⟩ := (hown p d').1 h'
    have := m.si q hq a1
    rw [a3, a2] at this
    simp only [dstCb, hxx, bind_ok, hD s h, if_true, this, hc]
  · intro s hc h h'
    have : x.sid p = 0 := m.s0 p (fun q hq a1 a2 => h' q.d ((hown p q.d).2 ⟨q, hq, a1, a2, rfl⟩))
    simp only [dstCb, hxx, bind_ok, hD s h, if_true, this, hc]

/-- C54, partially: where every route leads to the same stream number, messages are forwarded on the stream of the route, in
both directions, and messages without route are dropped.  Missing: routes that change the number, see below. -/
theorem C54_identity_partial (ops : List Op) (ha : AdmRun init ops) :
    ∃ w, run init ops = .ok w ∧ ∀ c r x, r ∈ w.routes → r.id = c.route → x ∈ w.shs → x.id = r.sh →
      (∀ s d, HasRoute w x.src x.dst s d → s = d) → ∀ p,
      (HasRoute w x.src x.dst p p → srcCb w c p = .ok (.toDst p) ∧ (c.src = true → dstCb w c p = .ok (.toSrc p))) ∧
      (¬ HasRoute w x.src x.dst p p → srcCb w c p = .ok .dropped ∧ dstCb w c p = .ok .dropped) := by
  obtain ⟨w, h1, h2⟩ := C54_forwarding ops ha
  refine ⟨w, h1, ?_⟩
  intro c r x hr hrc hx hxr hid p
  obtain ⟨a1, a2, a3, a4, a5, a6⟩ := h2 c r x hr hrc hx hxr p
  refine ⟨fun h => ⟨a2 p p h h, fun hc => a5 p p hc h h⟩, fun h => ⟨a1 ?_, a4 ?_⟩⟩
  · intro d hd
    have := hid p d hd
    subst this
    exact h hd
  · intro s hs
    have := hid s p hs
    subst this
    exact h hs

def nA : List Byte := [0x61]
def nB : List Byte := [0x62]

/-- the state after a successful run -/
def after (ops : List Op) : W := match run init ops with | .ok w => w | .error _ => init

/-- one route from stream 1 to stream 2, and a connection -/
def cfg12 : List Op := [.instAdd nA true, .instAdd nB false, .routeAdd nA 1 nB 2 true, .accept 2]

/-- C54 is false: with a route from stream 1 to stream 2 a message on stream 1 is forwarded on stream 0, and so is the answer on
stream 2: the maps of the two directions are swapped -/
theorem C54_swapped_violated : ∃ w c, run init cfg12 = .ok w ∧ w.conns = [c] ∧
    (w.routes.map fun r => (r.s, r.d)) = [(1, 2)] ∧ srcCb w c 1 = .ok (.toDst 0) ∧ dstCb w c 2 = .ok (.toSrc 0) :=
  ⟨_, _, rfl, rfl, by decide +kernel, rfl, rfl⟩

/-- C54 is false: after the deletion of the first route between two instances, every message and every new connection of the remaining
routes uses the freed route -/
theorem C54_first_route_violated : ∃ w c, run init (cfg12 ++ [.routeAdd nA 3 nB 3 true, .routeDel nA 1 nB 2]) = .ok w ∧ w.conns = [c] ∧
    (w.routes.map fun r => (r.s, r.d)) = [(3, 3)] ∧ srcCb w c 3 = .error .badptr ∧ accept w 2 = .error .badptr :=
  ⟨_, _, rfl, rfl, by decide +kernel, rfl, rfl⟩

/-- C54 is false: after the source side has closed its connection, a message from the destination is sent to the freed object -/
theorem C54_src_closed_violated : ∃ w c, run init (cfg12 ++ [.srcClosed 4]) = .ok w ∧ w.conns = [c] ∧ dstCb w c 2 = .error .badptr :=
  ⟨_, _, rfl, rfl, rfl⟩

/-! ### C55: routes that exist already are refused -/

/-- C55, partially: a route is refused if it equals the *first* route between the two instances -/
theorem C55_duplicate_partial (w : W) (sn dn : List Byte) (s d : Nat) (o : Bool) {a b : Inst} (h : args w sn s dn d = some (a, b))
    {r : Route} {x : Sh} (hf : firstRoute w a.id b.id = some (r, x)) (hs : r.s = BitVec.ofNat 8 s) (hd : r.d = BitVec.ofNat 8 d) :
    routeAdd w sn s dn d o = (w, .warning) := by
  simp only [routeAdd, h, hf, if_pos (And.intro hs hd)]

/-- C55 is false: any other existing route is accepted again; deleting it once then disables it although it is still configured -/
theorem C55_duplicate_violated : ∃ w, run init [.instAdd nA true, .instAdd nB false, .routeAdd nA 1 nB 1 true, .routeAdd nA 3 nB 3 true, .routeAdd nA 3 nB 3 true,
      .routeDel nA 3 nB 3, .accept 2] = .ok w ∧
    (w.routes.map fun r => (r.s, r.d)) = [(1, 1), (3, 3)] ∧ ∃ c, w.conns = [c] ∧ srcCb w c 3 = .ok .dropped :=
  ⟨_, rfl, by decide +kernel, _, rfl, rfl⟩

/-! ### C107: reference counts -/

/-- C107: in every history an instance counts exactly the routes that use it -/
theorem C107_refcount (ops : List Op) (w : W) (h : run init ops = .ok w) :
    (∀ i ∈ w.insts, i.refcnt = uses w i.id) ∧
    (∀ r ∈ w.routes, ∃ x ∈ w.shs, x.id = r.sh ∧ (∃ i ∈ w.insts, i.id = x.src) ∧ ∃ i ∈ w.insts, i.id = x.dst) := by
  obtain ⟨hI, hF⟩ := run_inv init_inv.1 init_inv.2 h
  refine ⟨hI.hi, ?_⟩
  intro r hr
  obtain ⟨x, hx, hxi⟩ := hI.hsh r hr
  exact ⟨x, hx, hxi, hI.ex x hx⟩

/-- C107: so an instance can be deleted exactly if no route uses it -/
theorem C107_delete (ops : List Op) (w : W) (h : run init ops = .ok w) (n : List Byte) (i : Inst)
    (hi : w.insts.find? (fun i => nameEq i.name n) = some i) :
    (0 < uses w i.id → instDel w n = .ok (w, .warning)) ∧
    (uses w i.id = 0 → ∃ w', instDel w n = .ok (w', .success) ∧ w'.routes = w.routes ∧ ∀ j, j ∈ w'.insts ↔ j ∈ w.insts ∧ j.id ≠ i.id) := by
  obtain ⟨hI, _⟩ := run_inv init_inv.1 init_inv.2 h
  have hc := hI.hi i (List.mem_of_find?_eq_some hi)
  constructor
  · intro hu
    simp only [instDel, hi]
    rw [if_pos (by omega)]
  · intro hu
    simp only [instDel, hi]
    rw [if_neg (by omega)]
    refine ⟨_, rfl, rfl, ?_⟩
    intro j
    simp [List.mem_filter]

/-! ### C108: deletion -/

/-- C108, partially: deleting a route works as long as another one between the same instances remains -/
theorem C108_delete_partial (ops : List Op) (ha : AdmRun init ops) : ∃ w, run init ops = .ok w := by
  obtain ⟨w, h, _⟩ := C54_forwarding ops ha
  exact ⟨w, h⟩

/-- C108 is false: deleting the last route between two instances follows a null pointer -/
theorem C108_last_route_violated : run init [.instAdd nA true, .instAdd nB false, .routeAdd nA 1 nB 2 true, .routeDel nA 1 nB 2] = .error .badptr := rfl

/-- C108 is false: deleting an instance that does not exist reads outside of any instance -/
theorem C108_unknown_instance_violated (w : W) (n : List Byte) (h : ∀ i ∈ w.insts, nameEq i.name n = false) : instDel w n = .error .oob := by
  have : w.insts.find? (fun i => nameEq i.name n) = none := by
    rw [List.find?_eq_none]
    intro i hi; rw [h i hi]; simp
  simp only [instDel, this]

/-- C108 is false: two routes from the same stream are accepted, and deleting one disables the other -/
theorem C108_overlap_violated : ∃ w, run init [.instAdd nA true, .instAdd nB false, .routeAdd nA 1 nB 1 true, .routeAdd nA 1 nB 3 true,
      .routeDel nA 1 nB 3, .accept 2] = .ok w ∧
    (w.routes.map fun r => (r.s, r.d)) = [(1, 1)] ∧ ∃ c, w.conns = [c] ∧ srcCb w c 1 = .ok .dropped :=
  ⟨_, rfl, by decide +kernel, _, rfl, rfl⟩

/-! ### C109: names of instances -/

/-- C109, partially: a name of up to 15 octets is found again after it was added, and refused a second time -/
theorem C109_names_partial (w : W) (n : List Byte) (b b' : Bool) (h : n.length ≤ 15) :
    (instAdd (instAdd w n b).1 n b').2 = .warning := by
  have key : (instAdd w n b).1.insts.any (fun i => nameEq i.name n) = true := by
    simp only [instAdd]
    split
    · rename_i h; exact h
    · simp only [List.any_append, List.any_cons, List.any_nil, Bool.or_false, Bool.or_eq_true]
      right
      have : n.take (NAME - 1) = n := List.take_of_length_le (by simpa [NAME] using h)
      rw [this]
      simp [nameEq]
  have : ∀ w' : W, w'.insts.any (fun i => nameEq i.name n) = true → (instAdd w' n b').2 = .warning := by
    intro w' h'; simp only [instAdd, h', if_true]
  exact this _ key

/-- C109 is false: a longer name is never found, and can be added any number of times -/
theorem C109_long_name_violated (n : List Byte) (h : 16 ≤ n.length) (b : Bool) :
    (instAdd (instAdd init n b).1 n b).2 = .success ∧ instDel (instAdd init n b).1 n = .error .oob := by
  have hne : nameEq (n.take 15) n = false := by
    simp only [nameEq, NAME, List.take_take]
    have : n.take (min 16 15) ≠ n.take 16 := by
      intro e
      have := congrArg List.length e
      simp at this
      omega
    simpa using this
  have h1 : (instAdd init n b).1 = { init with insts := [⟨0, n.take 15, b, 0⟩], next := 1 } := rfl
  rw [h1]
  constructor
  · simp [instAdd, hne]
  · simp [instDel, hne]

/-- C109 (exact): in every state, an instance that was just added is found under its name (and a second one refused) exactly if the name has at most
15 octets -/
theorem C109_names_iff (w : W) (n : List Byte) (b b' : Bool) (hn : (instAdd w n b).2 = .success) :
    (instAdd (instAdd w n b).1 n b').2 = .warning ↔ n.length ≤ 15 := by
  constructor
  · intro h
    apply Classical.byContradiction
    intro hlen
    have hne : nameEq (n.take 15) n = false := by
      simp only [nameEq, NAME, List.take_take]
      have : n.take (min 16 15) ≠ n.take 16 := by
        intro e
        have := congrArg List.length e
        simp at this
        omega
      simpa using this
    have hw : w.insts.any (fun i => nameEq i.name n) = false := by
      cases hc : w.insts.any (fun i => nameEq i.name n) with
      | false => rfl
      | true => simp [instAdd, hc] at hn
    have h1 : (instAdd w n b).1 = { w with insts := w.insts ++ [⟨w.next, n.take 15, b, 0⟩], next := w.next + 1 } := by
      simp [instAdd, hw, NAME]
    have h2 : (w.insts ++ [(⟨w.next, n.take 15, b, 0⟩ : Inst)]).any (fun i => nameEq i.name n) = false := by
      rw [List.any_append, hw]; simp [hne]
    have h3 : ∀ w' : W, w'.insts.any (fun i => nameEq i.name n) = false → (instAdd w' n b').2 = .success := by
      intro w' h'; simp only [instAdd, h']; rfl
    rw [h1, h3 _ h2] at h
    cases h
  · exact fun h => C109_names_partial w n b b' h

example : (instAdd init nA true).2 = .success ∧ nA.length ≤ 15 := ⟨rfl, by decide⟩

/-! ### a non-trivial admissible history -/

instance (w : W) (a b : Nat) (s d : Byte) : Decidable (HasRoute w a b s d) := by
  unfold HasRoute; infer_instance

def hist : List Op :=
  [.instAdd nA true, .instAdd nB false, .routeAdd nA 0 nB 0 true, .routeAdd nA 255 nB 255 true, .accept 2, .routeAdd nA 7 nB 7 true, .routeDel nA 255 nB 255]

theorem hist_adm : AdmRun init hist := by
  have e : ∀ (P : W → Prop) (w1 : W) (op : Op) (w : W), step w op = .ok w1 → P w1 → ∀ w', step w op = .ok w' → P w' := by
    intro P w1 op w h hp w' h'
    rw [h] at h'
    exact Except.ok.inj h' ▸ hp
  have none_of : ∀ {w : W} {a b : Nat} {s d : Byte}, w.routes = [] → ¬ HasRoute w a b s d := by
    intro w a b s d h ⟨r, hr, _⟩; rw [h] at hr; simp at hr
  refine ⟨trivial, e _ _ _ _ rfl ⟨trivial, e _ _ _ _ rfl ⟨?_, e _ _ _ _ rfl ⟨?_, e _ _ _ _ rfl ⟨?_, e _ _ _ _ rfl ⟨?_, e _ _ _ _ rfl ⟨?_, fun _ _ => trivial⟩⟩⟩⟩⟩⟩⟩
  · intro a b _ s' d' h; exact absurd h (none_of rfl)
  · intro a b _ s' d' ⟨r, hr, x, hx, _, _, _, hs, hd⟩
    have : r = ⟨2, 0, 0, 3⟩ := by
      have hr' : r ∈ ([⟨2, 0, 0, 3⟩] : List Route) := hr
      simpa using hr'
    subst this
    subst hs hd
    exact ⟨by decide, by decide⟩
  · exact ⟨⟨2, 0, 0, 3⟩, List.mem_cons_self, rfl⟩
  · intro a b _ s' d' ⟨r, hr, x, hx, _, _, _, hs, hd⟩
    have : r = ⟨2, 0, 0, 3⟩ ∨ r = ⟨4, 255, 255, 3⟩ := by
      have hr' : r ∈ ([⟨2, 0, 0, 3⟩, ⟨4, 255, 255, 3⟩] : List Route) := hr
      simpa using hr'
    subst hs hd
    rcases this with h | h <;> subst h <;> exact ⟨by decide, by decide⟩
  · intro a b hab
    have : a.id = 0 ∧ b.id = 1 := by
      have h2 : (args (after (hist.take 6)) nA 255 nB 255).map (fun x => (x.1.id, x.2.id)) = some (0, 1) := rfl
      have h3 : args (after (hist.take 6)) nA 255 nB 255 = some (a, b) := hab
      rw [h3] at h2
      simpa using h2
    rw [this.1, this.2]
    exact ⟨0, 0, ⟨⟨2, 0, 0, 3⟩, List.mem_cons_self, _, List.mem_cons_self, rfl, rfl, rfl, rfl, rfl⟩, .inl (by decide)⟩

example : ∃ w c, run init hist = .ok w ∧ w.conns = [c] ∧ (w.routes.map fun r => (r.s, r.d)) = [(0, 0), (7, 7)] ∧
    srcCb w c 7 = .ok (.toDst 7) ∧ dstCb w c 7 = .ok (.toSrc 7) ∧ srcCb w c 255 = .ok .dropped ∧ w.insts.map Inst.refcnt = [2, 2] :=
  ⟨_, _, rfl, rfl, by decide +kernel, rfl, rfl, rfl, by decide +kernel⟩

end Verif.IpaProxy
