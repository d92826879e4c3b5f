import Verif.Proof.E1StepTr
/-! Proof infrastructure: what one event does to references, queues and wake-ups of the E1 input core. -/
set_option maxRecDepth 10000
namespace Verif.E1

theorem fresh_line {st : St} (h : Inv st) : st.line st.nextLine = none := by
  cases e : st.line st.nextLine with
  | none => rfl
  | some x => exact absurd (h.lineLt _ x e) (by omega)

theorem fresh_link {st : St} (h : Inv st) : st.link st.nextLink = none := by
  cases e : st.link st.nextLink with
  | none => rfl
  | some x => exact absurd (h.linkLt _ x e) (by omega)

/-- with a total of zero all counts are zero -/
theorem cnt_zero_of_total {uses : List (Nat × Int)} (h : UsesOk uses) (ht : total uses = 0) (u : Nat) :
    cnt uses u = 0 := by
  have h3 : ¬ ∃ v, 0 < cnt uses v := fun hh => by
    have := (total_pos_iff h).2 hh; omega
  have := cnt_nonneg h u
  rcases Int.lt_or_eq_of_le this with h4 | h4
  · exact absurd ⟨u, h4⟩ h3
  · exact h4.symm

theorem refsOf_setLine (st : St) (l : Nat) (x : Option Line) (l' u : Nat) :
    refsOf (setLine st l x) l' u = if l' = l then (match x with | some x => cnt x.uses u | none => 0) else refsOf st l' u := by
  unfold refsOf setLine
  simp only
  by_cases e : l' = l
  · rw [if_pos e, if_pos e]; cases x <;> rfl
  · rw [if_neg e, if_neg e]

theorem tr_credit {st st' : St} {op : Op} {acts : List Act} (h : Inv st) (t : Tr st op st' acts) (l u : Nat) :
    refsOf st' l u = refsOf st l u + credit st op l u := by
  cases t with
  | pure op ds acts hb hc hs ha => rw [hc]; simp only [refsOf, Int.add_zero]
  | bind l' x ops hx =>
    rw [refsOf_setLine]
    have : credit st (.bindOps l' ops) l u = 0 := rfl
    rw [this]
    split
    · subst_vars; simp [refsOf, hx]
    · omega
  | ts op r t acts hr ht hl hb hc hs ha hw => rw [hc]; simp only [refsOf, setTs, Int.add_zero]
  | link op k x q t acts hk hon ht hl hrq hb hf ho hc hlf hkf hw =>
    rw [hc]; simp only [refsOf, setTs, setLink, Int.add_zero]
  | create nr name d hn hd hok hc =>
    rw [hc]
    have hf := fresh_line h
    unfold refsOf
    simp only
    by_cases e : l = st.nextLine
    · subst e
      simp only [if_true, hf, cnt_cons, true_and]
      by_cases e' : u = uCtor
      · subst e'; simp [cnt_nil]
      · simp [e', Ne.symm e', cnt_nil]
    · simp [e, Ne.symm e]
  | clone l' u' x hx hu ht =>
    have hf := fresh_line h
    have hcr : credit st (.lineClone l' u') l u = if st.nextLine = l ∧ u' = u then 1 else 0 := by
      simp only [credit, lineClone, lineAt_ok hx, bind_ok]
    rw [hcr]
    unfold refsOf
    simp only
    by_cases e : l = st.nextLine
    · subst e
      simp only [if_true, hf, cnt_cons, true_and]
      by_cases e' : u = u'
      · subst e'; simp [cnt_nil]
      · simp [Ne.symm e', cnt_nil]
    · simp [e, Ne.symm e]
  | use op l' u' d x hx hop hu hd ht =>
    rw [refsOf_setLine]
    have hcr : credit st op l u = if l' = l ∧ u' = u then d else 0 := by
      rcases hop with ⟨rfl, rfl⟩ | ⟨rfl, rfl⟩ <;> rfl
    rw [hcr]
    by_cases e : l = l'
    · subst e
      simp only [if_true, true_and, cnt_addUse, refsOf, hx]
      by_cases e' : u = u'
      · subst e'; simp
      · simp [e', Ne.symm e']
    · simp [e, Ne.symm e]
  | free l' u' x hx hu hd ht =>
    have hcr : credit st (.linePut l' u') l u = if l' = l ∧ u' = u then -1 else 0 := rfl
    rw [hcr]
    have : refsOf { setLine st l' none with reg := st.reg.erase l' } l u = refsOf (setLine st l' none) l u := rfl
    rw [this, refsOf_setLine]
    by_cases e : l = l'
    · subst e
      have hz := cnt_zero_of_total ((h.uses l x hx).1.add u' (-1) (by omega)) (by rw [total_addUse]; omega) u
      rw [cnt_addUse] at hz
      simp only [if_true, true_and, refsOf, hx]
      by_cases e' : u = u'
      · subst e'; simp at hz ⊢; omega
      · simp [e', Ne.symm e'] at hz ⊢; omega
    · simp [e, Ne.symm e]
  | linkCreate r ty trx tei sapi x ls d hr hx hu hc =>
    rw [hc]
    have : refsOf (setLink (setTs { setLine st r.1 (some { x with uses := addUse x.uses uLink 1 }) with
            nextLink := st.nextLink + 1 } r { st.ts r with u := .sign (ls ++ [st.nextLink]) d }) st.nextLink
          (some { ts := r, type := ty, trx := trx, tei := tei, sapi := sapi, tx := [], onList := true })) l u
        = refsOf (setLine st r.1 (some { x with uses := addUse x.uses uLink 1 })) l u := rfl
    rw [this, refsOf_setLine]
    by_cases e : l = r.1
    · subst e
      simp only [if_true, true_and, cnt_addUse, refsOf, hx]
    · simp [e, Ne.symm e]
  | begin k x ls d close hk hon hu hm hcl =>
    have : credit st (.destroyBegin k) l u = 0 := rfl
    rw [this]; simp only [refsOf, setTs, setLink, Int.add_zero]
  | fin k x y hk hoff hl ht =>
    have hcr : credit st (.destroyEnd k) l u = if x.ts.1 = l ∧ u = uLink then -1 else 0 := by
      simp only [credit, hk]
    rw [hcr]
    have : refsOf (setLink (setLine st x.ts.1 (some { y with uses := addUse y.uses uLink (-1) })) k none) l u
       = refsOf (setLine st x.ts.1 (some { y with uses := addUse y.uses uLink (-1) })) l u := rfl
    rw [this, refsOf_setLine]
    by_cases e : l = x.ts.1
    · subst e
      simp only [if_true, true_and, cnt_addUse, refsOf, hl]
    · simp [e, Ne.symm e]
  | finFree k x y hk hoff hl ht =>
    have hcr : credit st (.destroyEnd k) l u = if x.ts.1 = l ∧ u = uLink then -1 else 0 := by
      simp only [credit, hk]
    rw [hcr]
    have : refsOf (setLink { setLine st x.ts.1 none with reg := st.reg.erase x.ts.1 } k none) l u
       = refsOf (setLine st x.ts.1 none) l u := rfl
    rw [this, refsOf_setLine]
    by_cases e : l = x.ts.1
    · subst e
      obtain ⟨a, b, c⟩ := h.uses _ y hl
      have hpos : 0 < linksOn st x.ts.1 := by
        unfold linksOn
        rw [List.countP_pos_iff]
        exact ⟨k, List.mem_range.2 (h.linkLt k x hk), by simp [hk]⟩
      have hz := cnt_zero_of_total (a.add uLink (-1) (by omega)) (by rw [total_addUse]; omega) u
      rw [cnt_addUse] at hz
      simp only [if_true, true_and, refsOf, hl]
      omega
    · simp [e, Ne.symm e]

/-! ### freeing -/

/-- how the set of lines changes -/
theorem tr_lines {st st' : St} {op : Op} {acts : List Act} (h : Inv st) (t : Tr st op st' acts) :
    (lineFrees acts = [] ∧ st.nextLine ≤ st'.nextLine ∧ st'.nextLine ≤ st.nextLine + 1 ∧
      ∀ l, Live st' l ↔ Live st l ∨ (st.nextLine ≤ l ∧ l < st'.nextLine)) ∨
    (∃ l, lineFrees acts = [l] ∧ st'.nextLine = st.nextLine ∧ Live st l ∧ ∀ l', Live st' l' ↔ Live st l' ∧ l' ≠ l) := by
  have same : ∀ st' : St, st'.line = st.line → st'.nextLine = st.nextLine → lineFrees acts = [] →
      (lineFrees acts = [] ∧ st.nextLine ≤ st'.nextLine ∧ st'.nextLine ≤ st.nextLine + 1 ∧
      ∀ l, Live st' l ↔ Live st l ∨ (st.nextLine ≤ l ∧ l < st'.nextLine)) := by
    intro st' e1 e2 e3
    refine ⟨e3, by omega, by omega, ?_⟩
    intro l
    simp only [Live, e1, e2]
    constructor
    · exact .inl
    · rintro (h | h)
      · exact h
      · omega
  have upd : ∀ (l : Nat) (x y : Line) (st' : St), st.line l = some x → st'.line = (setLine st l (some y)).line →
      st'.nextLine = st.nextLine → lineFrees acts = [] →
      (lineFrees acts = [] ∧ st.nextLine ≤ st'.nextLine ∧ st'.nextLine ≤ st.nextLine + 1 ∧
      ∀ l, Live st' l ↔ Live st l ∨ (st.nextLine ≤ l ∧ l < st'.nextLine)) := by
    intro l x y st' hx e1 e2 e3
    refine ⟨e3, by omega, by omega, ?_⟩
    intro l'
    have : Live st' l' ↔ Live st l' := by
      simp only [Live, e1, setLine]
      by_cases e : l' = l
      · subst e; simp [hx]
      · simp [e]
    rw [this, e2]
    constructor
    · exact .inl
    · rintro (h | h)
      · exact h
      · omega
  have del : ∀ (l : Nat) (st' : St), Live st l → st'.line = (setLine st l none).line →
      st'.nextLine = st.nextLine → lineFrees acts = [l] →
      (∃ l, lineFrees acts = [l] ∧ st'.nextLine = st.nextLine ∧ Live st l ∧ ∀ l', Live st' l' ↔ Live st l' ∧ l' ≠ l) := by
    intro l st' hx e1 e2 e3
    refine ⟨l, e3, e2, hx, ?_⟩
    intro l'
    simp only [Live, e1, setLine]
    by_cases e : l' = l
    · subst e; simp
    · simp [e]
  have new : ∀ (y : Line) (st' : St),
      st'.line = (fun l' => if l' = st.nextLine then some y else st.line l') →
      st'.nextLine = st.nextLine + 1 → lineFrees acts = [] →
      (lineFrees acts = [] ∧ st.nextLine ≤ st'.nextLine ∧ st'.nextLine ≤ st.nextLine + 1 ∧
      ∀ l, Live st' l ↔ Live st l ∨ (st.nextLine ≤ l ∧ l < st'.nextLine)) := by
    intro y st' e1 e2 e3
    refine ⟨e3, by omega, by omega, ?_⟩
    intro l
    simp only [Live, e1, e2]
    by_cases e : l = st.nextLine
    · subst e; simp
    · simp only [e, if_false]
      constructor
      · exact .inl
      · rintro (h | h)
        · exact h
        · omega
  cases t with
  | pure op ds acts hb hc hs ha => exact .inl (same _ rfl rfl ha.lines)
  | bind l' x ops hx => exact .inl (upd l' x _ _ hx rfl rfl rfl)
  | ts op r t acts hr ht hl hb hc hs ha hw => exact .inl (same _ rfl rfl ha.lines)
  | link op k x q t acts hk hon ht hl hrq hb hf ho hc hlf hkf hw => exact .inl (same _ rfl rfl hlf)
  | create nr name d hn hd hok hc => exact .inl (new _ _ rfl rfl rfl)
  | clone l' u' x hx hu ht => exact .inl (new _ _ rfl rfl rfl)
  | use op l' u' d x hx hop hu hd ht => exact .inl (upd l' x _ _ hx rfl rfl rfl)
  | free l' u' x hx hu hd ht => exact .inr (del l' _ ⟨x, hx⟩ rfl rfl rfl)
  | linkCreate r ty trx tei sapi x ls d hr hx hu hc => exact .inl (upd r.1 x _ _ hx rfl rfl rfl)
  | begin k x ls d close hk hon hu hm hcl =>
    refine .inl (same _ rfl rfl ?_)
    unfold lineFrees
    rw [List.filterMap_append, filterMap_nil_of (by simp)]
    rcases hcl with rfl | rfl <;> rfl
  | fin k x y hk hoff hl ht => exact .inl (upd x.ts.1 y _ _ hl rfl rfl rfl)
  | finFree k x y hk hoff hl ht => exact .inr (del x.ts.1 _ ⟨y, hl⟩ rfl rfl rfl)

/-- how the set of links changes -/
theorem tr_linkset {st st' : St} {op : Op} {acts : List Act} (h : Inv st) (t : Tr st op st' acts) :
    (linkFrees acts = [] ∧ st.nextLink ≤ st'.nextLink ∧ st'.nextLink ≤ st.nextLink + 1 ∧
      ∀ k, LinkLive st' k ↔ LinkLive st k ∨ (st.nextLink ≤ k ∧ k < st'.nextLink)) ∨
    (∃ k, linkFrees acts = [k] ∧ op = .destroyEnd k ∧ st'.nextLink = st.nextLink ∧ LinkLive st k ∧
      ∀ k', LinkLive st' k' ↔ LinkLive st k' ∧ k' ≠ k) := by
  have same : ∀ st' : St, st'.link = st.link → st'.nextLink = st.nextLink → linkFrees acts = [] →
      (linkFrees acts = [] ∧ st.nextLink ≤ st'.nextLink ∧ st'.nextLink ≤ st.nextLink + 1 ∧
      ∀ l, LinkLive st' l ↔ LinkLive st l ∨ (st.nextLink ≤ l ∧ l < st'.nextLink)) := by
    intro st' e1 e2 e3
    refine ⟨e3, by omega, by omega, ?_⟩
    intro l
    simp only [LinkLive, e1, e2]
    constructor
    · exact .inl
    · rintro (h | h)
      · exact h
      · omega
  have upd : ∀ (l : Nat) (x y : Link) (st' : St), st.link l = some x → st'.link = (setLink st l (some y)).link →
      st'.nextLink = st.nextLink → linkFrees acts = [] →
      (linkFrees acts = [] ∧ st.nextLink ≤ st'.nextLink ∧ st'.nextLink ≤ st.nextLink + 1 ∧
      ∀ l, LinkLive st' l ↔ LinkLive st l ∨ (st.nextLink ≤ l ∧ l < st'.nextLink)) := by
    intro l x y st' hx e1 e2 e3
    refine ⟨e3, by omega, by omega, ?_⟩
    intro l'
    have : LinkLive st' l' ↔ LinkLive st l' := by
      simp only [LinkLive, e1, setLink]
      by_cases e : l' = l
      · subst e; simp [hx]
      · simp [e]
    rw [this, e2]
    constructor
    · exact .inl
    · rintro (h | h)
      · exact h
      · omega
  have del : ∀ (l : Nat) (st' : St), LinkLive st l → op = .destroyEnd l → st'.link = (setLink st l none).link →
      st'.nextLink = st.nextLink → linkFrees acts = [l] →
      (∃ l, linkFrees acts = [l] ∧ op = .destroyEnd l ∧ st'.nextLink = st.nextLink ∧ LinkLive st l ∧
        ∀ l', LinkLive st' l' ↔ LinkLive st l' ∧ l' ≠ l) := by
    intro l st' hx e0 e1 e2 e3
    refine ⟨l, e3, e0, e2, hx, ?_⟩
    intro l'
    simp only [LinkLive, e1, setLink]
    by_cases e : l' = l
    · subst e; simp
    · simp [e]
  cases t with
  | pure op ds acts hb hc hs ha => exact .inl (same _ rfl rfl ha.links)
  | bind l' x ops hx => exact .inl (same _ rfl rfl rfl)
  | ts op r t acts hr ht hl hb hc hs ha hw => exact .inl (same _ rfl rfl ha.links)
  | link op k x q t acts hk hon ht hl hrq hb hf ho hc hlf hkf hw => exact .inl (upd k x _ _ hk rfl rfl hkf)
  | create nr name d hn hd hok hc => exact .inl (same _ rfl rfl rfl)
  | clone l' u' x hx hu ht => exact .inl (same _ rfl rfl rfl)
  | use op l' u' d x hx hop hu hd ht => exact .inl (same _ rfl rfl rfl)
  | free l' u' x hx hu hd ht => exact .inl (same _ rfl rfl rfl)
  | linkCreate r ty trx tei sapi x ls d hr hx hu hc =>
    refine .inl ⟨rfl, by simp [setLink, setTs], by simp [setLink, setTs], ?_⟩
    intro l
    simp only [LinkLive, setLink, setTs, setLine]
    by_cases e : l = st.nextLink
    · subst e; simp
    · simp only [e, if_false]
      constructor
      · exact .inl
      · rintro (h | h)
        · exact h
        · omega
  | begin k x ls d close hk hon hu hm hcl =>
    refine .inl (upd k x _ _ hk rfl rfl ?_)
    unfold linkFrees
    rw [List.filterMap_append, filterMap_nil_of (by simp)]
    rcases hcl with rfl | rfl <;> rfl
  | fin k x y hk hoff hl ht => exact .inr (del k _ ⟨x, hk⟩ rfl rfl rfl rfl)
  | finFree k x y hk hoff hl ht => exact .inr (del k _ ⟨x, hk⟩ rfl rfl rfl rfl)

/-! ### order on a link -/

/-- messages on the transmit queue of a link -/
theorem queueOf_setLink (st : St) (k : Nat) (x : Option Link) (j : Nat) :
    queueOf (setLink st k x) j = if j = k then (match x with | some x => x.tx | none => []) else queueOf st j := by
  unfold queueOf setLink
  simp only
  by_cases e : j = k
  · rw [if_pos e, if_pos e]; cases x <;> rfl
  · rw [if_neg e, if_neg e]

theorem txOf_map_free (k : Nat) (q : List Msg) : txOf k (q.map .free) = [] := by
  unfold txOf
  apply filterMap_nil_of
  simp

theorem txOf_append (k : Nat) (a b : List Act) : txOf k (a ++ b) = txOf k a ++ txOf k b := by
  simp [txOf]

/-- a link being destroyed has nothing queued -/
def OffEmpty (st : St) : Prop := ∀ k x, st.link k = some x → x.onList = false → x.tx = []

theorem tr_fifo {st st' : St} {op : Op} {acts : List Act} (h : Inv st) (ho : OffEmpty st) (t : Tr st op st' acts) (k : Nat) :
    (op = .destroyBegin k ∧ txOf k acts = [] ∧ k < st'.nextLink ∧ ∃ x, st'.link k = some x ∧ x.onList = false) ∨
    queueOf st k ++ sentTo k op = txOf k acts ++ queueOf st' k := by
  cases t with
  | pure op ds acts hb hc hs ha => right; rw [hs, ha.tx]; simp [queueOf]
  | bind l' x ops hx => right; simp [sentTo, txOf, queueOf, setLine]
  | ts op r t acts hr ht hl hb hc hs ha hw => right; rw [hs, ha.tx]; simp [queueOf, setTs]
  | link op j x q t acts hk hon ht hl hrq hb hf ho hc hlf hkf hw =>
    right
    have : queueOf (setTs (setLink st j (some { x with tx := q })) x.ts t) k = queueOf (setLink st j (some { x with tx := q })) k := rfl
    rw [this, queueOf_setLink]
    by_cases e : k = j
    · subst e
      simp only [if_true]
      rw [← hf]
      simp [queueOf, hk]
    · obtain ⟨e1, e2⟩ := ho k e
      simp [e1, e2, e]
  | create nr name d hn hd hok hc => right; simp [sentTo, txOf, queueOf]
  | clone l' u' x hx hu ht => right; simp [sentTo, txOf, queueOf]
  | use op l' u' d x hx hop hu hd ht =>
    right
    have : sentTo k op = [] := by rcases hop with ⟨rfl, _⟩ | ⟨rfl, _⟩ <;> rfl
    simp [this, txOf, queueOf, setLine]
  | free l' u' x hx hu hd ht => right; simp [sentTo, txOf, queueOf, setLine]
  | linkCreate r ty trx tei sapi x ls d hr hx hu hc =>
    right
    have hf := fresh_link h
    rw [queueOf_setLink]
    by_cases e : k = st.nextLink
    · subst e; simp [sentTo, txOf, queueOf, hf]
    · simp [e, sentTo, txOf, queueOf, setTs, setLine]
  | begin j x ls d close hk hon hu hm hcl =>
    have htx : ∀ k, txOf k (x.tx.map .free ++ close) = [] := by
      intro k
      rw [txOf_append, txOf_map_free]
      rcases hcl with rfl | rfl <;> simp [txOf]
    by_cases e : k = j
    · subst e
      left
      exact ⟨rfl, htx _, h.linkLt k x hk, _, if_pos rfl, rfl⟩
    · right
      rw [htx, queueOf_setLink]
      simp [e, sentTo, queueOf, setTs]
  | fin j x y hk hoff hl ht =>
    right
    rw [queueOf_setLink]
    by_cases e : k = j
    · subst e
      simp [sentTo, txOf, queueOf, hk, ho k x hk hoff]
    · simp [e, sentTo, txOf, queueOf, setLine]
  | finFree j x y hk hoff hl ht =>
    right
    rw [queueOf_setLink]
    by_cases e : k = j
    · subst e
      simp [sentTo, txOf, queueOf, hk, ho k x hk hoff]
    · simp [e, sentTo, txOf, queueOf, setLine]

theorem tr_offEmpty {st st' : St} {op : Op} {acts : List Act} (ho : OffEmpty st) (t : Tr st op st' acts) : OffEmpty st' := by
  cases t with
  | pure op ds acts hb hc hs ha => exact ho
  | bind l' x ops hx => exact ho
  | ts op r t acts hr ht hl hb hc hs ha hw => exact ho
  | link op j x q t acts hk hon ht hl hrq hb hf _ hc hlf hkf hw =>
    intro k y hy hoff
    simp only [setTs, setLink] at hy
    by_cases e : k = j
    · rw [if_pos e] at hy; cases hy; rw [show x.onList = true from hon] at hoff; cases hoff
    · rw [if_neg e] at hy; exact ho k y hy hoff
  | create nr name d hn hd hok hc => exact ho
  | clone l' u' x hx hu ht => exact ho
  | use op l' u' d x hx hop hu hd ht => exact ho
  | free l' u' x hx hu hd ht => exact ho
  | linkCreate r ty trx tei sapi x ls d hr hx hu hc =>
    intro k y hy hoff
    simp only [setTs, setLink] at hy
    by_cases e : k = st.nextLink
    · rw [if_pos e] at hy; cases hy; rfl
    · rw [if_neg e] at hy; exact ho k y hy hoff
  | begin j x ls d close hk hon hu hm hcl =>
    intro k y hy hoff
    simp only [setTs, setLink] at hy
    by_cases e : k = j
    · rw [if_pos e] at hy; cases hy; rfl
    · rw [if_neg e] at hy; exact ho k y hy hoff
  | fin j x y hk hoff hl ht =>
    intro k y hy hoff
    simp only [setTs, setLink] at hy
    by_cases e : k = j
    · rw [if_pos e] at hy; cases hy
    · rw [if_neg e] at hy; exact ho k y hy hoff
  | finFree j x y hk hoff hl ht =>
    intro k y hy hoff
    simp only [setTs, setLink] at hy
    by_cases e : k = j
    · rw [if_pos e] at hy; cases hy
    · rw [if_neg e] at hy; exact ho k y hy hoff

/-! ### wake-up -/

/-- whoever has queued messages will be served: write events are enabled or the timer is running -/
def Wake (st : St) : Prop := ∀ r, At st r → ∀ k ∈ linksOf (st.ts r).u, queueOf st k ≠ [] → Awake (st.ts r)

theorem tr_wake {st st' : St} {op : Op} {acts : List Act} (h : Inv st) (hw : Wake st) (t : Tr st op st' acts)
    (hd : ∀ k, op = .destroyBegin k → OthersIdle st k) : Wake st' := by
  cases t with
  | pure op ds acts hb hc hs ha => exact hw
  | bind l' x ops hx =>
    intro r hr
    apply hw r
    obtain ⟨⟨y, hy⟩, h2⟩ := hr
    refine ⟨?_, h2⟩
    simp only [setLine] at hy
    by_cases e : r.1 = l'
    · exact ⟨x, e ▸ hx⟩
    · exact ⟨y, by simpa [e] using hy⟩
  | ts op r t acts hr ht hl hb hc hs ha hw' =>
    intro r' hr' k hk hq
    have hr' : At st r' := hr'
    have hq : queueOf st k ≠ [] := hq
    simp only [setTs] at hk ⊢
    by_cases e : r' = r
    · subst e
      simp only [if_true] at hk ⊢
      rw [hl] at hk
      rcases hw' with hw' | hw'
      · exact hw' (hw r' hr' k hk hq)
      · exact absurd (hw' k hk) hq
    · simp only [e, if_false] at hk ⊢
      exact hw r' hr' k hk hq
  | link op j x q t acts hk hon ht hl hrq hb hf ho hc hlf hkf hw' =>
    intro r' hr' k hm hq
    have hr' : At st r' := hr'
    have hq : queueOf (setLink st j (some { x with tx := q })) k ≠ [] := hq
    rw [queueOf_setLink] at hq
    simp only [setTs, setLink] at hm ⊢
    by_cases e : r' = x.ts
    · subst e
      simp only [if_true] at hm ⊢
      rw [hl] at hm
      rcases hw' with hw' | ⟨hw', hw''⟩
      · exact hw'
      · apply hw'
        by_cases e : k = j
        · subst e
          simp only [if_true] at hq
          exact hw x.ts hr' k hm (by simp only [queueOf, hk]; exact hw'' hq)
        · simp only [e, if_false] at hq
          exact hw x.ts hr' k hm hq
    · simp only [e, if_false] at hm ⊢
      have hjk : k ≠ j := by
        rintro rfl
        obtain ⟨y, y1, y2, _⟩ := h.ls r' hr' k hm
        rw [hk] at y1; cases y1; exact e y2.symm
      simp only [hjk, if_false] at hq
      exact hw r' hr' k hm hq
  | create nr name d hn hdr hok hc =>
    intro r hr k hk hq
    by_cases e : r.1 = st.nextLine
    · simp [e, freshTs, linksOf] at hk
    · simp only [e, if_false] at hk ⊢
      obtain ⟨⟨x, hx⟩, h2⟩ := hr
      simp only [e, if_false] at hx
      exact hw r ⟨⟨x, hx⟩, h2⟩ k hk hq
  | clone l' u' x hx hu ht =>
    intro r hr k hk hq
    by_cases e : r.1 = st.nextLine
    · simp [e, cloneTs, linksOf, ht r.2 hr.2] at hk
    · simp only [e, if_false] at hk ⊢
      obtain ⟨⟨x, hx⟩, h2⟩ := hr
      simp only [e, if_false] at hx
      exact hw r ⟨⟨x, hx⟩, h2⟩ k hk hq
  | use op l' u' d x hx hop hu hd ht =>
    intro r hr
    apply hw r
    obtain ⟨⟨y, hy⟩, h2⟩ := hr
    refine ⟨?_, h2⟩
    simp only [setLine] at hy
    by_cases e : r.1 = l'
    · exact ⟨x, e ▸ hx⟩
    · exact ⟨y, by simpa [e] using hy⟩
  | free l' u' x hx hu hd ht =>
    intro r hr
    apply hw r
    obtain ⟨⟨y, hy⟩, h2⟩ := hr
    refine ⟨?_, h2⟩
    simp only [setLine] at hy
    by_cases e : r.1 = l'
    · exact ⟨x, e ▸ hx⟩
    · exact ⟨y, by simpa [e] using hy⟩
  | linkCreate r ty trx tei sapi x ls d hr hx hu hc =>
    intro r' hr' k hm hq
    have hat : At st r' := by
      obtain ⟨⟨y, hy⟩, h2⟩ := hr'
      refine ⟨?_, h2⟩
      simp only [setLink, setTs, setLine] at hy
      by_cases e : r'.1 = r.1
      · exact ⟨x, e ▸ hx⟩
      · exact ⟨y, by simpa [e] using hy⟩
    rw [queueOf_setLink] at hq
    simp only [setTs, setLink] at hm ⊢
    by_cases e : k = st.nextLink
    · simp [e] at hq
    · simp only [e, if_false] at hq
      have hq : queueOf st k ≠ [] := hq
      by_cases e' : r' = r
      · subst e'
        simp only [if_true, linksOf, List.mem_append, List.mem_singleton, e, or_false] at hm ⊢
        exact hw r' hat k (by rw [hu]; exact hm) hq
      · simp only [e', if_false] at hm ⊢
        exact hw r' hat k hm hq
  | begin j x ls d close hk hon hu hm hcl =>
    have hid := hd j rfl
    intro r' hr' k hm' hq
    have hr' : At st r' := hr'
    rw [queueOf_setLink] at hq
    simp only [setTs, setLink] at hm' ⊢
    by_cases e : k = j
    · simp [e] at hq
    · simp only [e, if_false] at hq
      have hq : queueOf st k ≠ [] := hq
      by_cases e' : r' = x.ts
      · subst e'
        exfalso
        simp only [if_true] at hm'
        have hk' : k ∈ linksOf (st.ts x.ts).u := by rw [hu]; exact List.mem_of_mem_erase hm'
        obtain ⟨y, y1, y2, y3⟩ := h.ls x.ts hr' k hk'
        exact hq (by simp only [queueOf, y1]; exact hid x hk k y y1 y2 y3 e)
      · simp only [e', if_false] at hm' ⊢
        exact hw r' hr' k hm' hq
  | fin j x y hk hoff hl ht =>
    intro r hr k hm hq
    rw [queueOf_setLink] at hq
    by_cases e : k = j
    · simp [e] at hq
    · simp only [e, if_false] at hq
      refine hw r ?_ k hm hq
      obtain ⟨⟨z, hz⟩, h2⟩ := hr
      refine ⟨?_, h2⟩
      simp only [setLink, setLine] at hz
      by_cases e : r.1 = x.ts.1
      · exact ⟨y, e ▸ hl⟩
      · exact ⟨z, by simpa [e] using hz⟩
  | finFree j x y hk hoff hl ht =>
    intro r hr k hm hq
    rw [queueOf_setLink] at hq
    by_cases e : k = j
    · simp [e] at hq
    · simp only [e, if_false] at hq
      refine hw r ?_ k hm hq
      obtain ⟨⟨z, hz⟩, h2⟩ := hr
      refine ⟨?_, h2⟩
      simp only [setLink, setLine] at hz
      by_cases e : r.1 = x.ts.1
      · exact ⟨y, e ▸ hl⟩
      · exact ⟨z, by simpa [e] using hz⟩

end Verif.E1
