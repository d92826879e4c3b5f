import Verif.Proof.E1Hist
/-! Proof infrastructure: where the messages are. -/
set_option maxRecDepth 10000
namespace Verif.E1

theorem flatMap_congr' {α : Type} {n : Nat} {f g : Nat → List α} (h : ∀ j < n, g j = f j) :
    (List.range n).flatMap g = (List.range n).flatMap f := by
  induction n with
  | zero => rfl
  | succ n ih =>
    simp only [List.range_succ, List.flatMap_append, List.flatMap_singleton]
    rw [ih (fun j hj => h j (by omega)), h n (by omega)]

/-- one entry changes -/
theorem perm_update {α : Type} {n k : Nat} {f g : Nat → List α} {a b : List α} (hk : k < n)
    (h : ∀ j < n, j ≠ k → g j = f j) (hp : (a ++ f k).Perm (b ++ g k)) :
    (a ++ (List.range n).flatMap f).Perm (b ++ (List.range n).flatMap g) := by
  induction n with
  | zero => omega
  | succ n ih =>
    simp only [List.range_succ, List.flatMap_append, List.flatMap_singleton]
    by_cases e : k = n
    · subst e
      rw [flatMap_congr' (f := f) (g := g) (fun j hj => h j (by omega) (by omega))]
      refine List.Perm.trans ?_ (List.Perm.trans (List.Perm.append_left ((List.range k).flatMap f) hp) ?_)
      · rw [← List.append_assoc, ← List.append_assoc]
        exact List.Perm.append_right _ List.perm_append_comm
      · rw [← List.append_assoc, ← List.append_assoc]
        exact List.Perm.append_right _ List.perm_append_comm
    · have := ih (by omega) (fun j hj hne => h j (by omega) hne)
      rw [h n (by omega) (Ne.symm e), ← List.append_assoc, ← List.append_assoc]
      exact List.Perm.append_right _ this

theorem perm_drop {α : Type} {n k : Nat} {f g : Nat → List α} (hk : k < n)
    (h : ∀ j < n, j ≠ k → g j = f j) (hg : g k = []) :
    ((List.range n).flatMap f).Perm (f k ++ (List.range n).flatMap g) := by
  have := perm_update (a := []) (b := f k) hk h (by rw [hg]; simp)
  simpa using this

theorem disposed_free' (q : List Msg) (b : List Act) : disposed (q.map .free ++ b) = q ++ disposed b := by
  rw [disposed_append, disposed_free]

theorem lineMsgs'_eq {st st' : St} {l : Nat} (h1 : (st'.line l).isSome = (st.line l).isSome)
    (h2 : ∀ i < 32, rawq (st'.ts (l, i)).u = rawq (st.ts (l, i)).u) : lineMsgs' st' l = lineMsgs' st l := by
  unfold lineMsgs'
  have : lineMsgs st' l = lineMsgs st l := flatMap_congr' h2
  cases e1 : st'.line l <;> cases e2 : st.line l <;> simp_all

theorem queued_same {st st' : St} (h1 : st'.nextLine = st.nextLine) (h2 : st'.nextLink = st.nextLink)
    (h3 : ∀ k < st.nextLink, queueOf st' k = queueOf st k) (h4 : ∀ l < st.nextLine, lineMsgs' st' l = lineMsgs' st l) :
    queued st' = queued st := by
  unfold queued linkMsgs
  rw [h1, h2, flatMap_congr' h3, flatMap_congr' h4]

theorem perm_mid {α : Type} {a b c d : List α} (h : (a ++ b).Perm (c ++ d)) (e : List α) :
    (a ++ (b ++ e)).Perm (c ++ (d ++ e)) := by
  rw [← List.append_assoc, ← List.append_assoc]; exact h.append_right e

theorem perm_mid' {α : Type} {a b c d : List α} (h : (a ++ b).Perm (c ++ d)) (e : List α) :
    (a ++ (e ++ b)).Perm (c ++ (e ++ d)) := by
  have : ∀ a b : List α, (a ++ (e ++ b)).Perm (e ++ (a ++ b)) := by
    intro a b
    rw [← List.append_assoc, ← List.append_assoc]; exact List.Perm.append_right _ List.perm_append_comm
  exact (this a b).trans ((h.append_left e).trans (this c d).symm)

theorem lost_nil {st : St} {acts : List Act} (h : lineFrees acts = []) : lost st acts = [] := by
  unfold lost; rw [h]; rfl

/-- freeing a line that no link refers to -/
theorem queued_free {st st' : St} {l : Nat} {x : Line} (hx : st.line l = some x) (hlt : l < st.nextLine)
    (h1 : st'.nextLine = st.nextLine) (h2 : st'.nextLink = st.nextLink)
    (h3 : ∀ k < st.nextLink, queueOf st' k = queueOf st k)
    (h4 : st'.line = (setLine st l none).line) (h5 : st'.ts = st.ts) :
    (queued st).Perm (lineMsgs st l ++ queued st') := by
  unfold queued linkMsgs
  rw [h1, h2, flatMap_congr' h3]
  have h6 : lineMsgs' st' l = [] := by simp [lineMsgs', h4, setLine]
  have h7 : lineMsgs' st l = lineMsgs st l := by simp [lineMsgs', hx]
  have := perm_drop (f := lineMsgs' st) (g := lineMsgs' st') hlt (fun j _ hne => lineMsgs'_eq (by rw [h4]; simp [setLine, hne])
    (by rw [h5]; simp)) h6
  rw [h7] at this
  have h8 := perm_mid' (a := []) (c := lineMsgs st l) (b := (List.range st.nextLine).flatMap (lineMsgs' st))
    (d := (List.range st.nextLine).flatMap (lineMsgs' st')) (by simpa using this) ((List.range st.nextLink).flatMap (queueOf st))
  simpa using h8

/-- every message handed in, and every message queued before, is afterwards passed on, freed, queued, or
lost with the memory of a line -/
theorem tr_msgs {st st' : St} {op : Op} {acts : List Act} (h : Inv st) (ho : OffEmpty st) (t : Tr st op st' acts) :
    (enters st op ++ queued st).Perm (disposed acts ++ lost st acts ++ queued st') := by
  cases t with
  | pure op ds acts hb hc hs ha =>
    rw [lost_nil ha.lines, List.append_nil]
    exact hb.append_right (queued st)
  | bind l' x ops hx =>
    rw [lost_nil (by rfl)]
    show (queued st).Perm (queued _)
    rw [queued_same (st := st) (st' := setLine st l' _) rfl rfl (fun _ _ => rfl)]
    intro l _
    apply lineMsgs'_eq
    · simp only [setLine]; split
      · subst_vars; simp [hx]
      · rfl
    · intros; rfl
  | ts op r t acts hr ht hl hb hc hs ha hw =>
    rw [lost_nil ha.lines, List.append_nil]
    obtain ⟨⟨x, hx⟩, hlt⟩ := hr
    have hll := h.lineLt r.1 x hx
    unfold queued
    have e1 : linkMsgs (setTs st r t) = linkMsgs st := rfl
    rw [e1]
    apply perm_mid'
    show (enters st op ++ _).Perm (disposed acts ++ (List.range st.nextLine).flatMap (lineMsgs' (setTs st r t)))
    refine perm_update hll ?_ ?_
    · intro j _ hne
      refine lineMsgs'_eq rfl ?_
      intro i _
      have : ((j, i) : TsRef) ≠ r := fun e => hne (by rw [← e])
      simp [setTs, this]
    · simp only [lineMsgs', hx, setTs]
      unfold lineMsgs
      refine perm_update (k := r.2) hlt ?_ ?_
      · intro j _ hne
        have : ((r.1, j) : TsRef) ≠ r := fun e => hne (by rw [← e])
        simp [this]
      · simpa using hb
  | link op k x q t acts hk hon ht hl hrq hb hf hoo hc hlf hkf hw =>
    rw [lost_nil hlf, List.append_nil]
    have hlt := h.linkLt k x hk
    have hlines : (List.range (setTs (setLink st k (some { x with tx := q })) x.ts t).nextLine).flatMap
        (lineMsgs' (setTs (setLink st k (some { x with tx := q })) x.ts t)) = (List.range st.nextLine).flatMap (lineMsgs' st) := by
      apply flatMap_congr'
      intro l _
      refine lineMsgs'_eq rfl ?_
      intro i _
      simp only [setTs, setLink]
      split
      · rw [hrq]; subst_vars; simp_all
      · rfl
    unfold queued
    rw [hlines]
    apply perm_mid
    unfold linkMsgs
    refine perm_update hlt ?_ ?_
    · intro j _ hne
      have : queueOf (setTs (setLink st k (some { x with tx := q })) x.ts t) j = queueOf (setLink st k (some { x with tx := q })) j := rfl
      rw [this, queueOf_setLink, if_neg hne]
    · have : queueOf (setTs (setLink st k (some { x with tx := q })) x.ts t) k = queueOf (setLink st k (some { x with tx := q })) k := rfl
      rw [this, queueOf_setLink, if_pos rfl]
      simpa [queueOf, hk] using hb
  | create nr name d hn hd hok hc =>
    rw [lost_nil (by rfl)]
    show (queued st).Perm (queued _)
    have hf := fresh_line h
    unfold queued
    simp only [List.range_succ, List.flatMap_append, List.flatMap_singleton]
    have e2 : ∀ d : Line, lineMsgs' { st with
          nextLine := st.nextLine + 1,
          line := fun l' => if l' = st.nextLine then some d else st.line l',
          ts := fun r => if r.1 = st.nextLine then freshTs st.nextLine else st.ts r,
          reg := st.reg ++ [st.nextLine] } st.nextLine = [] := by
      intro d
      simp only [lineMsgs', lineMsgs, if_true, List.flatMap_eq_nil_iff]
      intro i _; rfl
    rw [e2, List.append_nil]
    refine List.Perm.append_left (linkMsgs st) (List.Perm.of_eq (Eq.symm (flatMap_congr' ?_)))
    intro j hj
    have : j ≠ st.nextLine := by omega
    exact lineMsgs'_eq (by simp [this]) (by simp [this])
  | clone l' u' x hx hu ht =>
    rw [lost_nil (by rfl)]
    show (queued st).Perm (queued _)
    have hf := fresh_line h
    unfold queued
    simp only [List.range_succ, List.flatMap_append, List.flatMap_singleton]
    have e2 : lineMsgs' { st with
          nextLine := st.nextLine + 1,
          line := fun l' => if l' = st.nextLine then some { x with uses := [(u', 1)] } else st.line l',
          ts := fun r => if r.1 = st.nextLine then cloneTs st.nextLine (st.ts (l', r.2)) else st.ts r } st.nextLine = [] := by
      simp only [lineMsgs', lineMsgs, if_true, List.flatMap_eq_nil_iff]
      intro i hi
      simp only [cloneTs, ht i (List.mem_range.1 hi)]; rfl
    rw [e2, List.append_nil]
    refine List.Perm.append_left (linkMsgs st) (List.Perm.of_eq (Eq.symm (flatMap_congr' ?_)))
    intro j hj
    have : j ≠ st.nextLine := by omega
    exact lineMsgs'_eq (by simp [this]) (by simp [this])
  | use op l' u' d x hx hop hu hd ht =>
    rw [lost_nil (by rfl)]
    have : enters st op = [] := by rcases hop with ⟨rfl, _⟩ | ⟨rfl, _⟩ <;> rfl
    rw [this]
    show (queued st).Perm (queued _)
    rw [queued_same (st := st) (st' := setLine st l' _) rfl rfl (fun _ _ => rfl)]
    intro l _
    apply lineMsgs'_eq
    · simp only [setLine]; split
      · subst_vars; simp [hx]
      · rfl
    · intros; rfl
  | free l' u' x hx hu hd ht =>
    show (queued st).Perm (([l'] : List Nat).flatMap (lineMsgs st) ++ queued _)
    rw [List.flatMap_singleton]
    exact queued_free hx (h.lineLt _ x hx) rfl rfl (fun _ _ => rfl) rfl rfl
  | linkCreate r ty trx tei sapi x ls d hr hx hu hc =>
    rw [lost_nil (by rfl)]
    show (queued st).Perm (queued _)
    have hf := fresh_link h
    unfold queued
    have e1 : linkMsgs (setLink (setTs { setLine st r.1 (some { x with uses := addUse x.uses uLink 1 }) with
            nextLink := st.nextLink + 1 } r { st.ts r with u := .sign (ls ++ [st.nextLink]) d }) st.nextLink
          (some { ts := r, type := ty, trx := trx, tei := tei, sapi := sapi, tx := [], onList := true })) = linkMsgs st := by
      unfold linkMsgs
      have : (setLink (setTs { setLine st r.1 (some { x with uses := addUse x.uses uLink 1 }) with
            nextLink := st.nextLink + 1 } r { st.ts r with u := .sign (ls ++ [st.nextLink]) d }) st.nextLink
          (some { ts := r, type := ty, trx := trx, tei := tei, sapi := sapi, tx := [], onList := true })).nextLink = st.nextLink + 1 := rfl
      rw [this, List.range_succ, List.flatMap_append, List.flatMap_singleton, queueOf_setLink, if_pos rfl]
      simp only [List.append_nil]
      apply flatMap_congr'
      intro j hj
      rw [queueOf_setLink, if_neg (by omega)]
      rfl
    rw [e1]
    apply List.Perm.append_left
    apply List.Perm.of_eq
    symm
    apply flatMap_congr'
    intro l _
    apply lineMsgs'_eq
    · simp only [setLink, setTs, setLine]; split
      · subst_vars; simp [hx]
      · rfl
    · intro i _
      simp only [setLink, setTs, setLine]
      split
      · rename_i e; rw [e, hu]; rfl
      · rfl
  | begin k x ls d close hk hon hu hm hcl =>
    have hlf : lineFrees (x.tx.map .free ++ close) = [] := by
      unfold lineFrees
      rw [List.filterMap_append, filterMap_nil_of (by simp)]
      rcases hcl with rfl | rfl <;> rfl
    have hcd : disposed close = [] := by rcases hcl with rfl | rfl <;> rfl
    rw [lost_nil hlf, List.append_nil, disposed_free', hcd, List.append_nil]
    show ([] ++ queued st).Perm _
    have hlt := h.linkLt k x hk
    unfold queued
    have hl2 : (List.range st.nextLine).flatMap (lineMsgs' (setLink (setTs st x.ts { st.ts x.ts with u := .sign (ls.erase k) d, tmr := .idle }) k
          (some { x with onList := false, tx := [] }))) = (List.range st.nextLine).flatMap (lineMsgs' st) := by
      apply flatMap_congr'
      intro l _
      refine lineMsgs'_eq rfl ?_
      intro i _
      simp only [setLink, setTs]
      split
      · rename_i e; rw [e, hu]; rfl
      · rfl
    have e0 : (setLink (setTs st x.ts { st.ts x.ts with u := .sign (ls.erase k) d, tmr := .idle }) k
          (some { x with onList := false, tx := [] })).nextLine = st.nextLine := rfl
    rw [e0, hl2]
    apply perm_mid
    unfold linkMsgs
    refine perm_update hlt ?_ ?_
    · intro j _ hne
      rw [queueOf_setLink, if_neg hne]; rfl
    · rw [queueOf_setLink, if_pos rfl]
      simp [queueOf, hk]
  | fin k x y hk hoff hl ht =>
    rw [lost_nil (by rfl)]
    show (queued st).Perm (queued _)
    apply List.Perm.of_eq
    symm
    refine queued_same (st' := setLink (setLine st x.ts.1 (some { y with uses := addUse y.uses uLink (-1) })) k none) rfl rfl ?_ ?_
    · intro j _
      rw [queueOf_setLink]
      split
      · subst_vars; simp [queueOf, hk, ho _ x hk hoff]
      · rfl
    · intro l _
      apply lineMsgs'_eq
      · simp only [setLink, setLine]; split
        · subst_vars; simp [hl]
        · rfl
      · intros; rfl
  | finFree k x y hk hoff hl ht =>
    show (queued st).Perm (([x.ts.1] : List Nat).flatMap (lineMsgs st) ++ queued _)
    rw [List.flatMap_singleton]
    refine queued_free hl (h.lineLt _ y hl) rfl rfl ?_ rfl rfl
    intro j _
    rw [queueOf_setLink]
    split
    · subst_vars; simp [queueOf, hk, ho _ x hk hoff]
    · rfl

end Verif.E1
