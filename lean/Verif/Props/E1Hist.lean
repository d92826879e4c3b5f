import Verif.Proof.E1Msgs
/-!
# Properties C43, C46, C47 and more: the E1 input core, for all histories

A history starts with `e1inp_init()` (`St.init`) and consists of any number of allowed calls (`Adm`) in any
order.
-/
set_option maxRecDepth 10000
namespace Verif.E1

theorem inv_init : Inv St.init := by
  refine ⟨⟨by simp [St.init], by simp [St.init], by simp [St.init], by simp [St.init], by simp [St.init],
    ?_, ?_, ?_, by simp [St.init]⟩, by simp [St.init]⟩ <;>
  · rintro r ⟨⟨x, hx⟩, _⟩; simp [St.init] at hx

/-- a history whose events all took place -/
inductive Runs : St → List Op → St → List Act → Prop
  | nil (st : St) : Runs st [] st []
  | cons {st st' st'' : St} {op : Op} {ops : List Op} {a b : List Act} (hi : Inv st) (ha : Adm st op)
      (hs : step st op = .ok (st', a)) (ht : Tr st op st' a) (hr : Runs st' ops st'' b) :
      Runs st (op :: ops) st'' (a ++ b)

theorem runs_of {st : St} {ops : List Op} (h : Inv st) (ha : AdmRun st ops) :
    ∃ st' acts, run st ops = .ok (st', acts) ∧ Runs st ops st' acts ∧ Inv st' := by
  induction ops generalizing st with
  | nil => exact ⟨st, [], rfl, .nil st, h⟩
  | cons op ops ih =>
    obtain ⟨h1, h2⟩ := ha
    obtain ⟨st', a, hs, ht⟩ := step_tr h h1
    obtain ⟨st'', b, hr, hr', hi⟩ := ih (inv_tr h ht) (h2 st' a hs)
    refine ⟨st'', a ++ b, ?_, .cons h h1 hs ht hr', hi⟩
    simp only [run, hs, bind_ok, hr]

theorem offEmpty_init : OffEmpty St.init := by intro k x hx; simp [St.init] at hx

/-! ## C46: references to lines -/

theorem runs_refs {st st' : St} {ops : List Op} {acts : List Act} (h : Runs st ops st' acts) (l u : Nat) :
    refsOf st' l u = refsOf st l u + held st l u ops := by
  induction h with
  | nil st => simp [held]
  | cons hi ha hs ht hr ih =>
    rw [ih, tr_credit hi ht l u]
    simp only [held, hs]
    omega

/-- lines ever created are either still there or have been freed once -/
theorem runs_frees {st st' : St} {ops : List Op} {acts : List Act} (h : Runs st ops st' acts)
    (h0 : ∀ l, Live st l → l < st.nextLine) :
    (lineFrees acts).Nodup ∧ (∀ l ∈ lineFrees acts, (Live st l ∨ st.nextLine ≤ l) ∧ l < st'.nextLine ∧ ¬ Live st' l) ∧
    (∀ l, l < st'.nextLine → (Live st l ∨ st.nextLine ≤ l) → l ∈ lineFrees acts ∨ Live st' l) ∧
    (∀ l, Live st' l → (Live st l ∨ st.nextLine ≤ l) ∧ l < st'.nextLine) ∧ st.nextLine ≤ st'.nextLine := by
  induction h with
  | nil st =>
    refine ⟨by simp [lineFrees], by simp [lineFrees], ?_, fun l hl => ⟨.inl hl, h0 l hl⟩, Nat.le_refl _⟩
    rintro l hl (h | h)
    · exact .inr h
    · omega
  | @cons st st1 st2 op ops a b hi ha hs ht hr ih =>
    have happ : lineFrees (a ++ b) = lineFrees a ++ lineFrees b := by simp [lineFrees]
    rcases tr_lines hi ht with ⟨e, hle, hle1, hl⟩ | ⟨k, e, hn, hk, hl⟩
    · have h1 : ∀ l, Live st1 l → l < st1.nextLine := by
        intro l hll
        rcases (hl l).1 hll with h | h
        · have := h0 l h; omega
        · exact h.2
      obtain ⟨i1, i2, i3, i4, i5⟩ := ih h1
      have hconv : ∀ l, (Live st1 l ∨ st1.nextLine ≤ l) ↔ (Live st l ∨ st.nextLine ≤ l) := by
        intro l
        rw [hl l]
        constructor
        · rintro ((h | h) | h)
          · exact .inl h
          · exact .inr h.1
          · right; omega
        · rintro (h | h)
          · exact .inl (.inl h)
          · by_cases h' : l < st1.nextLine
            · exact .inl (.inr ⟨h, h'⟩)
            · right; omega
      rw [happ, e, List.nil_append]
      refine ⟨i1, ?_, ?_, ?_, by omega⟩
      · intro l hm; obtain ⟨a1, a2⟩ := i2 l hm; exact ⟨(hconv l).1 a1, a2⟩
      · intro l hlt hh; exact i3 l hlt ((hconv l).2 hh)
      · intro l hll; obtain ⟨a1, a2⟩ := i4 l hll; exact ⟨(hconv l).1 a1, a2⟩
    · have h1 : ∀ l, Live st1 l → l < st1.nextLine := by
        intro l hll
        have := h0 l ((hl l).1 hll).1; omega
      obtain ⟨i1, i2, i3, i4, i5⟩ := ih h1
      have hkl := h0 k hk
      have hkn : ¬ (Live st1 k ∨ st1.nextLine ≤ k) := by
        rintro (h | h)
        · exact ((hl k).1 h).2 rfl
        · omega
      rw [happ, e, List.singleton_append]
      refine ⟨List.nodup_cons.2 ⟨fun hm => hkn (i2 k hm).1, i1⟩, ?_, ?_, ?_, by omega⟩
      · intro l hm
        simp only [List.mem_cons] at hm
        rcases hm with rfl | hm
        · exact ⟨.inl hk, by omega, fun h => hkn (i4 l h).1⟩
        · obtain ⟨a1, a2⟩ := i2 l hm
          refine ⟨?_, a2⟩
          rcases a1 with h | h
          · exact .inl ((hl l).1 h).1
          · right; omega
      · intro l hlt hh
        by_cases ek : l = k
        · left; simp [ek]
        · have : Live st1 l ∨ st1.nextLine ≤ l := by
            rcases hh with h | h
            · exact .inl ((hl l).2 ⟨h, ek⟩)
            · right; omega
          rcases i3 l hlt this with h | h
          · left; simp [h]
          · exact .inr h
      · intro l hll
        obtain ⟨a1, a2⟩ := i4 l hll
        refine ⟨?_, a2⟩
        rcases a1 with h | h
        · exact .inl ((hl l).1 h).1
        · right; omega

/-- C46: in every history no operation faults (in particular none uses a freed line or link); a line exists
exactly while somebody holds a reference; the use count of every holder is the number of references taken
minus dropped; lines are freed at most once, and those created and not existing any more have been freed. -/
theorem line_refcount {ops : List Op} (ha : AdmRun St.init ops) :
    ∃ st acts, run St.init ops = .ok (st, acts) ∧
      (∀ l, Live st l ↔ ∃ u, 0 < held St.init l u ops) ∧
      (∀ l x, st.line l = some x → ∀ u, cnt x.uses u = held St.init l u ops) ∧
      (lineFrees acts).Nodup ∧
      (∀ l, l ∈ lineFrees acts ↔ l < st.nextLine ∧ ¬ Live st l) := by
  obtain ⟨st, acts, hr, hr', hi⟩ := runs_of inv_init ha
  have hrefs : ∀ l u, refsOf st l u = held St.init l u ops := by
    intro l u
    rw [runs_refs hr' l u]
    have : refsOf St.init l u = 0 := rfl
    omega
  have hlive : ∀ l, Live st l ↔ ∃ u, 0 < held St.init l u ops := by
    intro l
    constructor
    · rintro ⟨x, hx⟩
      obtain ⟨a, b, _⟩ := hi.uses l x hx
      obtain ⟨u, hu⟩ := (total_pos_iff a).1 b
      refine ⟨u, ?_⟩
      rw [← hrefs l u]
      simpa [refsOf, hx] using hu
    · rintro ⟨u, hu⟩
      rw [← hrefs l u] at hu
      cases hx : st.line l with
      | none => simp [refsOf, hx] at hu
      | some x => exact ⟨x, hx⟩
  obtain ⟨i1, i2, i3, i4, i5⟩ := runs_frees hr' (by intro l ⟨x, hx⟩; simp [St.init] at hx)
  refine ⟨st, acts, hr, hlive, ?_, i1, ?_⟩
  · intro l x hx u
    rw [← hrefs l u]; simp [refsOf, hx]
  · intro l
    constructor
    · intro hm; exact (i2 l hm).2
    · rintro ⟨hlt, hn⟩
      rcases i3 l hlt (.inr (Nat.zero_le _)) with h | h
      · exact h
      · exact absurd h hn

/-- C46: the references named "e1inp_sign_link" of a line are its signalling links: as long as a link
exists, so does its line -/
theorem link_keeps_line {ops : List Op} (ha : AdmRun St.init ops) :
    ∃ st acts, run St.init ops = .ok (st, acts) ∧
      (∀ k x, st.link k = some x → Live st x.ts.1) ∧
      ∀ l, held St.init l uLink ops = linksOn st l := by
  obtain ⟨st, acts, hr, hr', hi⟩ := runs_of inv_init ha
  refine ⟨st, acts, hr, fun k x hx => (hi.link k x hx).1.1, ?_⟩
  intro l
  have h1 := runs_refs hr' l uLink
  have h2 : refsOf St.init l uLink = 0 := rfl
  cases hx : st.line l with
  | some x =>
    have := (hi.uses l x hx).2.2
    simp only [refsOf, hx] at h1
    simp only [refsOf] at h2
    omega
  | none =>
    have h3 : refsOf st l uLink = 0 := by simp [refsOf, hx]
    have : linksOn st l = 0 := by
      unfold linksOn
      rw [List.countP_eq_zero]
      intro k _
      cases hk : st.link k with
      | none => simp
      | some y =>
        simp only [Option.any_some, beq_iff_eq]
        intro e
        obtain ⟨⟨z, hz⟩, _⟩ := (hi.link k y hk).1
        rw [e, hx] at hz; cases hz
    omega

/-! ## C47: line numbers -/

/-- C47: in every history, registered lines have different numbers; `e1inp_line_find` returns a line
registered under the number asked for, and NULL only if there is none -/
theorem line_numbers_unique {ops : List Op} (ha : AdmRun St.init ops) :
    ∃ st acts, run St.init ops = .ok (st, acts) ∧
      (∀ l x l' x', l ∈ st.reg → l' ∈ st.reg → st.line l = some x → st.line l' = some x' → x.num = x'.num → l = l') ∧
      ∀ nr, ∃ o, lineFind st nr = .ok o ∧
        ∀ l, o = some l ↔ l ∈ st.reg ∧ ∃ x, st.line l = some x ∧ x.num = nr := by
  obtain ⟨st, acts, hr, hr', hi⟩ := runs_of inv_init ha
  refine ⟨st, acts, hr, hi.regNum, ?_⟩
  intro nr
  unfold lineFind
  rcases lineFindIn_spec st nr st.reg hi.regLive with ⟨h1, h2⟩ | ⟨l, x, h1, h2, h3, h4⟩
  · refine ⟨none, h1, ?_⟩
    intro l
    constructor
    · intro h; cases h
    · rintro ⟨hm, x, hx, hn⟩; exact absurd hn (h2 l hm x hx)
  · refine ⟨some l, h4, ?_⟩
    intro l'
    constructor
    · intro h; cases h; exact ⟨h1, x, h2, h3⟩
    · rintro ⟨hm, y, hy, hn⟩; rw [hi.regNum l x l' y h1 hm h2 hy (by rw [h3, hn])]

/-- C47: `e1inp_line_create` with a number in use returns NULL and changes nothing; otherwise, with a
driver found that can create lines, it returns a new line which `e1inp_line_find` then returns for this
number -/
theorem line_create_find {ops : List Op} (ha : AdmRun St.init ops) :
    ∃ st acts, run St.init ops = .ok (st, acts) ∧ ∀ nr name,
      (∀ l, lineFind st nr = .ok (some l) → lineCreate st nr name = .ok (st, none)) ∧
      (lineFind st nr = .ok none → ∀ d, driverFind st name = some d → d.createOk = true →
        ∃ st' l, lineCreate st nr name = .ok (st', some l) ∧ ¬ Live st l ∧ Live st' l ∧
          lineFind st' nr = .ok (some l) ∧
          (∀ nr', nr' ≠ nr → lineFind st' nr' = lineFind st nr')) := by
  obtain ⟨st, acts, hr, hr', hi⟩ := runs_of inv_init ha
  refine ⟨st, acts, hr, ?_⟩
  intro nr name
  constructor
  · intro l hl
    unfold lineCreate
    rw [hl, bind_ok]
  · intro hf d hd hok
    have hfr := fresh_line hi
    refine ⟨{ st with
          nextLine := st.nextLine + 1,
          line := fun l' => if l' = st.nextLine then
            some { num := nr, driver := d, ops := none, uses := [(uCtor, 1)], pcapFd := -1 }
            else st.line l',
          ts := fun r => if r.1 = st.nextLine then freshTs st.nextLine else st.ts r,
          reg := st.reg ++ [st.nextLine] }, st.nextLine, ?_, ?_, ?_, ?_, ?_⟩
    · unfold lineCreate
      rw [hf, bind_ok]
      simp only [hd, hok, if_true]
    · rintro ⟨x, hx⟩; rw [hfr] at hx; cases hx
    · exact ⟨_, if_pos rfl⟩
    · have hall : ∀ ls : List Nat, (∀ l ∈ ls, Live st l) → ∀ nr',
          lineFindIn { st with
          nextLine := st.nextLine + 1,
          line := fun l' => if l' = st.nextLine then
            some { num := nr, driver := d, ops := none, uses := [(uCtor, 1)], pcapFd := -1 }
            else st.line l',
          ts := fun r => if r.1 = st.nextLine then freshTs st.nextLine else st.ts r,
          reg := st.reg ++ [st.nextLine] } nr' (ls ++ [st.nextLine]) =
          match lineFindIn st nr' ls with
          | .ok none => .ok (if nr = nr' then some st.nextLine else none)
          | o => o := by
        intro ls
        induction ls with
        | nil =>
          intro _ nr'
          simp only [List.nil_append, lineFindIn, lineAt, if_true, bind_ok]
          split <;> rfl
        | cons l ls ih =>
          intro hl nr'
          obtain ⟨x, hx⟩ := hl l (by simp)
          have hne : l ≠ st.nextLine := by rintro rfl; rw [hfr] at hx; cases hx
          simp only [List.cons_append, lineFindIn, lineAt, hne, if_false, hx, bind_ok]
          by_cases e : x.num = nr'
          · simp only [e, if_true]
          · simp only [e, if_false]
            exact ih (fun j hj => hl j (by simp [hj])) nr'
      have := hall st.reg hi.regLive nr
      unfold lineFind at hf ⊢
      rw [hf] at this
      simpa using this
    · intro nr' hne
      have hall : ∀ ls : List Nat, (∀ l ∈ ls, Live st l) →
          lineFindIn { st with
          nextLine := st.nextLine + 1,
          line := fun l' => if l' = st.nextLine then
            some { num := nr, driver := d, ops := none, uses := [(uCtor, 1)], pcapFd := -1 }
            else st.line l',
          ts := fun r => if r.1 = st.nextLine then freshTs st.nextLine else st.ts r,
          reg := st.reg ++ [st.nextLine] } nr' (ls ++ [st.nextLine]) = lineFindIn st nr' ls := by
        intro ls
        induction ls with
        | nil =>
          intro _
          simp only [List.nil_append, lineFindIn, lineAt, if_true, bind_ok, if_neg (Ne.symm hne)]
        | cons l ls ih =>
          intro hl
          obtain ⟨x, hx⟩ := hl l (by simp)
          have hne : l ≠ st.nextLine := by rintro rfl; rw [hfr] at hx; cases hx
          simp only [List.cons_append, lineFindIn, lineAt, hne, if_false, hx, bind_ok]
          by_cases e : x.num = nr'
          · simp only [e, if_true]
          · simp only [e, if_false]
            exact ih (fun j hj => hl j (by simp [hj]))
      exact hall st.reg hi.regLive

/-! ## C43: transmission on a signalling link -/

theorem runs_fifo {st st' : St} {ops : List Op} {acts : List Act} (h : Runs st ops st' acts) (ho : OffEmpty st) (k : Nat)
    (hd : Op.destroyBegin k ∉ ops) :
    queueOf st k ++ ops.flatMap (sentTo k) = txOf k acts ++ queueOf st' k := by
  induction h with
  | nil st => simp [txOf]
  | @cons st st1 st2 op ops a b hi ha hs ht hr ih =>
    simp only [List.mem_cons, not_or] at hd
    have ih := ih (tr_offEmpty ho ht) hd.2
    rcases tr_fifo hi ho ht k with ⟨e, _⟩ | e
    · exact absurd e.symm hd.1
    · rw [List.flatMap_cons, ← List.append_assoc, e, List.append_assoc, ih, txOf_append, List.append_assoc]

theorem runs_fifo_prefix {st st' : St} {ops : List Op} {acts : List Act} (h : Runs st ops st' acts) (ho : OffEmpty st)
    (k : Nat) (hk : k < st.nextLink) (hoff : ∀ x, st.link k = some x → x.onList = false) :
    txOf k acts = [] := by
  induction h with
  | nil st => rfl
  | @cons st st1 st2 op ops a b hi ha hs ht hr ih =>
    have hlt : k < st1.nextLink := by
      rcases tr_linkset hi ht with ⟨_, h1, _⟩ | ⟨_, _, _, h1, _⟩ <;> omega
    have hoff1 : ∀ x, st1.link k = some x → x.onList = false := by
      cases ht with
      | link op j x q t acts hkk hon ht hl hrq hb hf hoo hc hlf hkf hw =>
        intro y hy
        simp only [setTs, setLink] at hy
        by_cases e : k = j
        · have := hoff x (e ▸ hkk); rw [this] at hon; cases hon
        · rw [if_neg e] at hy; exact hoff y hy
      | linkCreate r ty trx tei sapi x ls d hr hx hu hc =>
        intro y hy
        simp only [setTs, setLink] at hy
        rw [if_neg (by omega)] at hy
        exact hoff y hy
      | begin j x ls d close hkk hon hu hm hcl =>
        intro y hy
        simp only [setTs, setLink] at hy
        by_cases e : k = j
        · rw [if_pos e] at hy; cases hy; rfl
        · rw [if_neg e] at hy; exact hoff y hy
      | fin j x y hkk hofff hl ht =>
        intro z hz
        simp only [setLine, setLink] at hz
        by_cases e : k = j
        · rw [if_pos e] at hz; cases hz
        · rw [if_neg e] at hz; exact hoff z hz
      | finFree j x y hkk hofff hl ht =>
        intro z hz
        simp only [setLine, setLink] at hz
        by_cases e : k = j
        · rw [if_pos e] at hz; cases hz
        · rw [if_neg e] at hz; exact hoff z hz
      | _ => exact hoff
    have htx : txOf k a = [] := by
      cases ht with
      | pure op ds acts hb hc hs ha => exact ha.tx k
      | ts op r t acts hr ht hl hb hc hs ha hw => exact ha.tx k
      | link op j x q t acts hkk hon ht hl hrq hb hf hoo hc hlf hkf hw =>
        by_cases e : k = j
        · have := hoff x (e ▸ hkk); rw [this] at hon; cases hon
        · exact (hoo k e).2
      | begin j x ls d close hkk hon hu hm hcl =>
        rw [txOf_append, txOf_map_free]
        rcases hcl with rfl | rfl <;> simp [txOf]
      | _ => rfl
    rw [txOf_append, htx, ih (tr_offEmpty ho ht) hlt hoff1]
    rfl

theorem runs_fifo_any {st st' : St} {ops : List Op} {acts : List Act} (h : Runs st ops st' acts) (ho : OffEmpty st)
    (k : Nat) : txOf k acts <+: queueOf st k ++ ops.flatMap (sentTo k) := by
  induction h with
  | nil st => exact ⟨queueOf st k, by simp [txOf]⟩
  | @cons st st1 st2 op ops a b hi ha hs ht hr ih =>
    have ih := ih (tr_offEmpty ho ht)
    rcases tr_fifo hi ho ht k with ⟨e, e1, e2, e3⟩ | e
    · obtain ⟨y, hy, hoff⟩ := e3
      have := runs_fifo_prefix hr (tr_offEmpty ho ht) k e2 (by intro z hz; rw [hy] at hz; cases hz; exact hoff)
      rw [txOf_append, e1, this]
      exact List.nil_prefix
    · rw [List.flatMap_cons, ← List.append_assoc, e, List.append_assoc, txOf_append]
      exact (List.prefix_append_right_inj _).2 ih

/-- C43: in every history, the messages of a link handed to the driver are, in order and each once, a prefix
of those sent on it with `abis_sendmsg`; as long as the link has not been destroyed, the rest is queued -/
theorem sign_tx_fifo {ops : List Op} (ha : AdmRun St.init ops) (k : Nat) :
    ∃ st acts, run St.init ops = .ok (st, acts) ∧
      txOf k acts <+: ops.flatMap (sentTo k) ∧
      (Op.destroyBegin k ∉ ops → ops.flatMap (sentTo k) = txOf k acts ++ queueOf st k) := by
  obtain ⟨st, acts, hr, hr', hi⟩ := runs_of inv_init ha
  have h0 : queueOf St.init k = [] := rfl
  refine ⟨st, acts, hr, ?_, ?_⟩
  · have := runs_fifo_any hr' offEmpty_init k
    rw [h0] at this; exact this
  · intro hd
    have := runs_fifo hr' offEmpty_init k hd
    rw [h0] at this; exact this

/-- C43: `e1inp_tx_ts` on a signalling timeslot returns nothing exactly if no link of it has a message
queued; else it takes the oldest message of the first link that has one, and changes nothing else -/
theorem tx_ts_sign {ops : List Op} (ha : AdmRun St.init ops) :
    ∃ st acts, run St.init ops = .ok (st, acts) ∧
      ∀ r i b, At st r → HasType st r .sign →
        (txTs st r i b = .ok (st, none) ∧ ∀ k ∈ linksOf (st.ts r).u, queueOf st k = []) ∨
        ∃ before k after x m ms, linksOf (st.ts r).u = before ++ k :: after ∧ (∀ j ∈ before, queueOf st j = []) ∧
          st.link k = some x ∧ x.tx = m :: ms ∧
          txTs st r i b = .ok (setLink st k (some { x with tx := ms }), some (some k, m)) := by
  obtain ⟨st, acts, hr, hr', hi⟩ := runs_of inv_init ha
  refine ⟨st, acts, hr, ?_⟩
  intro r i b hat hty
  obtain ⟨ls, d, hu⟩ := sign_of_type hty (hi.ts r hat).notStale
  rw [hu]
  simp only [txTs, tsAt_ok hat, bind_ok, hu, linksOf]
  rcases txScan_spec st ls (fun k hk => by
      obtain ⟨x, hx, _⟩ := hi.ls r hat k (by rw [hu]; exact hk); exact ⟨x, hx⟩) with
    ⟨h1, h2⟩ | ⟨a, k, c, x, m, ms, e, hk, hq, h2, h1⟩
  · left
    rw [h1]; exact ⟨rfl, h2⟩
  · right
    rw [h1]; exact ⟨a, k, c, x, m, ms, e, h2, hk, hq, rfl⟩

/-! ## Destruction of links -/

/-- links ever created are either still there or have been freed once -/
theorem runs_linkfrees {st st' : St} {ops : List Op} {acts : List Act} (h : Runs st ops st' acts)
    (h0 : ∀ l, LinkLive st l → l < st.nextLink) :
    (linkFrees acts).Nodup ∧ (∀ l ∈ linkFrees acts, (LinkLive st l ∨ st.nextLink ≤ l) ∧ l < st'.nextLink ∧ ¬ LinkLive st' l) ∧
    (∀ l, l < st'.nextLink → (LinkLive st l ∨ st.nextLink ≤ l) → l ∈ linkFrees acts ∨ LinkLive st' l) ∧
    (∀ l, LinkLive st' l → (LinkLive st l ∨ st.nextLink ≤ l) ∧ l < st'.nextLink) ∧ st.nextLink ≤ st'.nextLink := by
  induction h with
  | nil st =>
    refine ⟨by simp [linkFrees], by simp [linkFrees], ?_, fun l hl => ⟨.inl hl, h0 l hl⟩, Nat.le_refl _⟩
    rintro l hl (h | h)
    · exact .inr h
    · omega
  | @cons st st1 st2 op ops a b hi ha hs ht hr ih =>
    have happ : linkFrees (a ++ b) = linkFrees a ++ linkFrees b := by simp [linkFrees]
    rcases tr_linkset hi ht with ⟨e, hle, hle1, hl⟩ | ⟨k, e, _, hn, hk, hl⟩
    · have h1 : ∀ l, LinkLive st1 l → l < st1.nextLink := by
        intro l hll
        rcases (hl l).1 hll with h | h
        · have := h0 l h; omega
        · exact h.2
      obtain ⟨i1, i2, i3, i4, i5⟩ := ih h1
      have hconv : ∀ l, (LinkLive st1 l ∨ st1.nextLink ≤ l) ↔ (LinkLive st l ∨ st.nextLink ≤ l) := by
        intro l
        rw [hl l]
        constructor
        · rintro ((h | h) | h)
          · exact .inl h
          · exact .inr h.1
          · right; omega
        · rintro (h | h)
          · exact .inl (.inl h)
          · by_cases h' : l < st1.nextLink
            · exact .inl (.inr ⟨h, h'⟩)
            · right; omega
      rw [happ, e, List.nil_append]
      refine ⟨i1, ?_, ?_, ?_, by omega⟩
      · intro l hm; obtain ⟨a1, a2⟩ := i2 l hm; exact ⟨(hconv l).1 a1, a2⟩
      · intro l hlt hh; exact i3 l hlt ((hconv l).2 hh)
      · intro l hll; obtain ⟨a1, a2⟩ := i4 l hll; exact ⟨(hconv l).1 a1, a2⟩
    · have h1 : ∀ l, LinkLive st1 l → l < st1.nextLink := by
        intro l hll
        have := h0 l ((hl l).1 hll).1; omega
      obtain ⟨i1, i2, i3, i4, i5⟩ := ih h1
      have hkl := h0 k hk
      have hkn : ¬ (LinkLive st1 k ∨ st1.nextLink ≤ k) := by
        rintro (h | h)
        · exact ((hl k).1 h).2 rfl
        · omega
      rw [happ, e, List.singleton_append]
      refine ⟨List.nodup_cons.2 ⟨fun hm => hkn (i2 k hm).1, i1⟩, ?_, ?_, ?_, by omega⟩
      · intro l hm
        simp only [List.mem_cons] at hm
        rcases hm with rfl | hm
        · exact ⟨.inl hk, by omega, fun h => hkn (i4 l h).1⟩
        · obtain ⟨a1, a2⟩ := i2 l hm
          refine ⟨?_, a2⟩
          rcases a1 with h | h
          · exact .inl ((hl l).1 h).1
          · right; omega
      · intro l hlt hh
        by_cases ek : l = k
        · left; simp [ek]
        · have : LinkLive st1 l ∨ st1.nextLink ≤ l := by
            rcases hh with h | h
            · exact .inl ((hl l).2 ⟨h, ek⟩)
            · right; omega
          rcases i3 l hlt this with h | h
          · left; simp [h]
          · exact .inr h
      · intro l hll
        obtain ⟨a1, a2⟩ := i4 l hll
        refine ⟨?_, a2⟩
        rcases a1 with h | h
        · exact .inl ((hl l).1 h).1
        · right; omega

theorem useChange_link {st : St} {l u : Nat} {d : Int} {p : St × List Act} (h : useChange st l u d = .ok p) :
    p.1.link = st.link := by
  unfold useChange at h
  cases hx : lineAt st l with
  | error e => rw [hx, bind_err] at h; cases h
  | ok x =>
    rw [hx, bind_ok] at h
    by_cases h1 : total (addUse x.uses u d) > 0
    · simp only [if_pos h1] at h
      rw [← Except.ok.inj h]; rfl
    · simp only [if_neg h1] at h
      split at h
      · cases h
      · rw [← Except.ok.inj h]; rfl

/-- a second `e1inp_sign_link_destroy` of a link that is being destroyed (from the driver's close callback,
or from a callback it leads to) does nothing; every link is freed at most once, and a link that does not
exist any more has been freed -/
theorem link_freed_once {ops : List Op} (ha : AdmRun St.init ops) :
    ∃ st acts, run St.init ops = .ok (st, acts) ∧
      (linkFrees acts).Nodup ∧ (∀ k, k ∈ linkFrees acts ↔ k < st.nextLink ∧ ¬ LinkLive st k) ∧
      (∀ k x, st.link k = some x → x.onList = false → destroyBegin st k = .ok (st, false, [])) ∧
      (∀ k x, st.link k = some x → x.onList = true → ∃ st1 acts1 st2 acts2,
        destroyBegin st k = .ok (st1, true, acts1) ∧ destroyEnd st1 k = .ok (st2, acts2) ∧
        disposed acts1 = x.tx ∧ ¬ LinkLive st2 k ∧ (∀ j, j ≠ k → st2.link j = st.link j)) := by
  obtain ⟨st, acts, hr, hr', hi⟩ := runs_of inv_init ha
  obtain ⟨i1, i2, i3, i4, i5⟩ := runs_linkfrees hr' (by intro l ⟨x, hx⟩; simp [St.init] at hx)
  refine ⟨st, acts, hr, i1, ?_, ?_, ?_⟩
  · intro k
    constructor
    · intro hm; exact (i2 k hm).2
    · rintro ⟨hlt, hn⟩
      rcases i3 k hlt (.inr (Nat.zero_le _)) with h | h
      · exact h
      · exact absurd h hn
  · intro k x hx hoff
    unfold destroyBegin
    rw [linkAt_ok hx, bind_ok, hoff]
    rfl
  · intro k x hk hon
    obtain ⟨hat, hin⟩ := hi.link k x hk
    have hto := hi.ts x.ts hat
    have hm := hin hon
    obtain ⟨ls, d, hu⟩ : ∃ ls d, (st.ts x.ts).u = .sign ls d := by
      cases hu : (st.ts x.ts).u with
      | sign ls d => exact ⟨ls, d, rfl⟩
      | _ => rw [hu] at hm; simp [linksOf] at hm
    rw [hu] at hm
    obtain ⟨⟨y, hy⟩, _⟩ := id hat
    have htmr := hto.sign ⟨ls, d, hu⟩
    have hm' : k ∈ ls := hm
    have hun : unlinkTs (st.ts x.ts) k = .ok { st.ts x.ts with u := .sign (ls.erase k) d } := by
      simp only [unlinkTs, hu, if_pos hm']
    have hdel : ∀ u, timerDel { st.ts x.ts with u := u } = .ok { st.ts x.ts with u := u, tmr := .idle } := by
      intro u
      cases ht : (st.ts x.ts).tmr with
      | junk => exact absurd ht htmr
      | _ => simp only [timerDel, ht]
    have hlo : ∀ u, lineOf st { st.ts x.ts with u := u, tmr := .idle } = .ok y := by
      intro u
      unfold lineOf
      simp only [hto.line, lineAt_ok hy]
    have heq : destroyBegin st k = .ok
        (setLink (setTs st x.ts { st.ts x.ts with u := .sign (ls.erase k) d, tmr := .idle }) k
          (some { x with onList := false, tx := [] }), true, x.tx.map .free ++ closeActs y k) := by
      unfold destroyBegin
      rw [linkAt_ok hk, bind_ok, if_pos hon, tsAt_ok hat, bind_ok, hun, bind_ok, hdel, bind_ok, hlo, bind_ok]
    have hcl : closeActs y k = [] ∨ closeActs y k = [.drvClose k] := by
      unfold closeActs
      split
      · exact .inr rfl
      · exact .inl rfl
    have htr := Tr.begin st k x ls d (closeActs y k) hk hon hu hm' hcl
    have hi1 := inv_tr hi htr
    obtain ⟨st2, acts2, hs2, ht2⟩ := step_tr hi1 (op := .destroyEnd k) ⟨_, if_pos rfl, rfl⟩
    refine ⟨_, _, st2, acts2, heq, hs2, ?_, ?_, ?_⟩
    · rw [disposed_free']
      rcases hcl with e | e <;> rw [e] <;> simp [disposed, disposes]
    · rcases tr_linkset hi1 ht2 with ⟨e, _⟩ | ⟨j, _, e, _, _, hl⟩
      · exfalso
        cases ht2 with
        | pure op ds acts hb hc hs ha =>
          have := hc x.ts.1 uLink
          simp [credit, setLink] at this
        | ts op r t acts hr ht hl hb hc hs ha hw =>
          have := hc x.ts.1 uLink
          simp [credit, setLink] at this
        | link op j x' q t acts hk' hon' ht hl hrq hb hf hoo hc hlf hkf hw =>
          have := hc x.ts.1 uLink
          simp [credit, setLink] at this
        | use op l' u' d x hx hop hu hd ht => rcases hop with ⟨h, _⟩ | ⟨h, _⟩ <;> cases h
        | fin => simp [linkFrees] at e
        | finFree => simp [linkFrees] at e
      · cases e; intro h; exact ((hl k).1 h).2 rfl
    · intro j hj
      simp only [step, destroyEnd] at hs2
      have hk1 : (setLink (setTs st x.ts { st.ts x.ts with u := .sign (ls.erase k) d, tmr := .idle }) k
          (some { x with onList := false, tx := [] })).link k = some { x with onList := false, tx := [] } := if_pos rfl
      have hat1 : At (setLink (setTs st x.ts { st.ts x.ts with u := .sign (ls.erase k) d, tmr := .idle }) k
          (some { x with onList := false, tx := [] })) x.ts := hat
      have hline : ((setLink (setTs st x.ts { st.ts x.ts with u := .sign (ls.erase k) d, tmr := .idle }) k
          (some { x with onList := false, tx := [] })).ts x.ts).line = some x.ts.1 := by
        simp [setLink, setTs, hto.line]
      rw [linkAt_ok hk1, bind_ok, tsAt_ok hat1, bind_ok] at hs2
      simp only [hline] at hs2
      generalize hs1 : setLink (setTs st x.ts { st.ts x.ts with u := .sign (ls.erase k) d, tmr := .idle }) k
          (some { x with onList := false, tx := [] }) = s1 at hs2
      have hj1 : s1.link j = st.link j := by rw [← hs1]; simp [setLink, setTs, hj]
      cases hu : useChange s1 x.ts.1 uLink (-1) with
      | error e => rw [hu, bind_err] at hs2; cases hs2
      | ok p =>
        rw [hu, bind_ok] at hs2
        have := (Prod.mk.inj (Except.ok.inj hs2)).1
        rw [← this]
        simp only [setLink, hj, if_false]
        rw [useChange_link hu, hj1]

/-! ## Ownership of messages -/

theorem runs_msgs {st st' : St} {ops : List Op} {acts : List Act} (h : Runs st ops st' acts) (ho : OffEmpty st) :
    (entered st ops ++ queued st).Perm (disposed acts ++ lostIn st ops ++ queued st') := by
  induction h with
  | nil st => simp [entered, lostIn, disposed]
  | @cons st st1 st2 op ops a b hi ha hs ht hr ih =>
    have ih := ih (tr_offEmpty ho ht)
    have h1 := tr_msgs hi ho ht
    simp only [entered, lostIn, hs, disposed_append]
    rw [List.perm_iff_count] at *
    intro m
    have := ih m
    have := h1 m
    simp only [List.count_append] at *
    omega

/-- in every history, each message handed to the library has been passed on (to a callback or a driver) or
freed exactly once, or is still queued, or was queued in a raw or HDLC timeslot of a line that has been
freed -/
theorem messages_accounted {ops : List Op} (ha : AdmRun St.init ops) :
    ∃ st acts, run St.init ops = .ok (st, acts) ∧
      (entered St.init ops).Perm (disposed acts ++ queued st ++ lostIn St.init ops) := by
  obtain ⟨st, acts, hr, hr', hi⟩ := runs_of inv_init ha
  refine ⟨st, acts, hr, ?_⟩
  have h := runs_msgs hr' offEmpty_init
  have h0 : queued St.init = [] := rfl
  rw [h0, List.append_nil] at h
  refine h.trans ?_
  rw [List.append_assoc, List.append_assoc]
  exact List.Perm.append_left _ List.perm_append_comm

/-! ## Wake-up -/

theorem runs_wake {st st' : St} {ops : List Op} {acts : List Act} (h : Runs st ops st' acts) (hw : Wake st)
    (hd : AloneRun st ops) : Wake st' := by
  induction h with
  | nil st => exact hw
  | @cons st st1 st2 op ops a b hi ha hs ht hr ih => exact ih (tr_wake hi hw ht hd.1) (hd.2 _ _ hs)

/-- after every history in which links are only destroyed while the other links of their timeslot have
nothing queued: whenever a message is queued on a link, the driver has been asked for write events or the
delay timer is running -/
theorem queued_wakes_partial {ops : List Op} (ha : AdmRun St.init ops) (hd : AloneRun St.init ops) :
    ∃ st acts, run St.init ops = .ok (st, acts) ∧
      ∀ k x, st.link k = some x → x.tx ≠ [] → (st.ts x.ts).armed = true ∨ (st.ts x.ts).tmr = .pending := by
  obtain ⟨st, acts, hr, hr', hi⟩ := runs_of inv_init ha
  refine ⟨st, acts, hr, ?_⟩
  have hw0 : Wake St.init := by rintro r ⟨⟨x, hx⟩, _⟩; simp [St.init] at hx
  have hw := runs_wake hr' hw0 hd
  have hoff : OffEmpty st := by
    clear hw hd hr hi ha
    have : OffEmpty St.init → OffEmpty st := by
      generalize St.init = s0 at hr'
      induction hr' with
      | nil => exact id
      | cons hi ha hs ht hr ih => intro h; exact ih (tr_offEmpty h ht)
    exact this offEmpty_init
  intro k x hk hq
  have hon : x.onList = true := by
    cases h : x.onList with
    | true => rfl
    | false => exact absurd (hoff k x hk h) hq
  obtain ⟨hat, hin⟩ := hi.link k x hk
  exact hw x.ts hat k (hin hon) (by simpa [queueOf, hk] using hq)

end Verif.E1
