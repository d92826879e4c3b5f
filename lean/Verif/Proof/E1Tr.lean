import Verif.Proof.E1
/-! Proof infrastructure: invariant of the E1 input core, and a summary of the effects of one event. -/
set_option maxRecDepth 10000
namespace Verif.E1

def MuxOk (m : Mux.Mux) : Prop := ∀ c < 4, ∀ e ∈ m.queue c, Mux.Entry.Even e
def DmxOk (d : Demux.Dmx) : Prop := ∀ c < 4, Demux.Sch.WF (d.subch c)

/-- a timeslot of line `l` in good order -/
structure TsOk (l : Nat) (t : Ts) : Prop where
  line : t.line = some l
  notStale : ∀ u, t.u ≠ .stale u
  sign : IsSign t.u → t.tmr ≠ .junk
  pend : t.tmr = .pending → linksOf t.u ≠ []
  mux : ∀ cb m, t.u = .trau cb m → MuxOk m
  dmx : ∀ cb m, t.u = .trau cb m → DmxOk t.dmx

structure Core (st : St) : Prop where
  regNodup : st.reg.Nodup
  regLive : ∀ l ∈ st.reg, Live st l
  regNum : ∀ l x l' x', l ∈ st.reg → l' ∈ st.reg → st.line l = some x → st.line l' = some x' →
    x.num = x'.num → l = l'
  lineLt : ∀ l x, st.line l = some x → l < st.nextLine
  linkLt : ∀ k x, st.link k = some x → k < st.nextLink
  ts : ∀ r, At st r → TsOk r.1 (st.ts r)
  lsNodup : ∀ r, At st r → (linksOf (st.ts r).u).Nodup
  ls : ∀ r, At st r → ∀ k ∈ linksOf (st.ts r).u, ∃ x, st.link k = some x ∧ x.ts = r ∧ x.onList = true
  link : ∀ k x, st.link k = some x → At st x.ts ∧ (x.onList = true → k ∈ linksOf (st.ts x.ts).u)

structure Inv (st : St) : Prop extends Core st where
  uses : ∀ l x, st.line l = some x → UsesOk x.uses ∧ 0 < total x.uses ∧ cnt x.uses uLink = linksOn st l

/-- actions that free nothing but messages and transmit nothing for a link -/
structure Calm (acts : List Act) : Prop where
  tx : ∀ k, txOf k acts = []
  lines : lineFrees acts = []
  links : linkFrees acts = []

/-- the effects of one event -/
inductive Tr : St → Op → St → List Act → Prop
  | pure (st : St) (op : Op) (ds : List Driver) (acts : List Act)
      (hb : (enters st op).Perm (disposed acts)) (hc : ∀ l u, credit st op l u = 0)
      (hs : ∀ k, sentTo k op = []) (ha : Calm acts) :
      Tr st op { st with drivers := ds } acts
  | bind (st : St) (l : Nat) (x : Line) (ops : Option Bool) (hx : st.line l = some x) :
      Tr st (.bindOps l ops) (setLine st l (some { x with ops := ops })) []
  | ts (st : St) (op : Op) (r : TsRef) (t : Ts) (acts : List Act) (hr : At st r) (ht : TsOk r.1 t)
      (hl : linksOf t.u = linksOf (st.ts r).u)
      (hb : (enters st op ++ rawq (st.ts r).u).Perm (disposed acts ++ rawq t.u))
      (hc : ∀ l u, credit st op l u = 0) (hs : ∀ k, sentTo k op = []) (ha : Calm acts)
      (hw : (Awake (st.ts r) → Awake t) ∨ ∀ k ∈ linksOf (st.ts r).u, queueOf st k = []) :
      Tr st op (setTs st r t) acts
  | link (st : St) (op : Op) (k : Nat) (x : Link) (q : List Msg) (t : Ts) (acts : List Act)
      (hk : st.link k = some x) (hon : x.onList = true) (ht : TsOk x.ts.1 t)
      (hl : linksOf t.u = linksOf (st.ts x.ts).u) (hrq : rawq t.u = rawq (st.ts x.ts).u)
      (hb : (enters st op ++ x.tx).Perm (disposed acts ++ q))
      (hf : x.tx ++ sentTo k op = txOf k acts ++ q)
      (ho : ∀ j, j ≠ k → sentTo j op = [] ∧ txOf j acts = [])
      (hc : ∀ l u, credit st op l u = 0) (hlf : lineFrees acts = []) (hkf : linkFrees acts = [])
      (hw : Awake t ∨ ((Awake (st.ts x.ts) → Awake t) ∧ (q ≠ [] → x.tx ≠ []))) :
      Tr st op (setTs (setLink st k (some { x with tx := q })) x.ts t) acts
  | create (st : St) (nr : Byte) (name : List Byte) (d : Driver)
      (hn : ∀ l x, l ∈ st.reg → st.line l = some x → x.num ≠ nr)
      (hd : driverFind st name = some d) (hok : d.createOk = true)
      (hc : ∀ l u, credit st (.lineCreate nr name) l u = if st.nextLine = l ∧ u = uCtor then 1 else 0) :
      Tr st (.lineCreate nr name)
        { st with
          nextLine := st.nextLine + 1,
          line := fun l' => if l' = st.nextLine then
            some { num := nr, driver := d, ops := none, uses := [(uCtor, 1)], pcapFd := -1 }
            else st.line l',
          ts := fun r => if r.1 = st.nextLine then freshTs st.nextLine else st.ts r,
          reg := st.reg ++ [st.nextLine] } []
  | clone (st : St) (l u : Nat) (x : Line) (hx : st.line l = some x) (hu : u ≠ uLink)
      (ht : ∀ i < 32, (st.ts (l, i)).u = .none) :
      Tr st (.lineClone l u)
        { st with
          nextLine := st.nextLine + 1,
          line := fun l' => if l' = st.nextLine then some { x with uses := [(u, 1)] } else st.line l',
          ts := fun r => if r.1 = st.nextLine then cloneTs st.nextLine (st.ts (l, r.2)) else st.ts r } []
  | use (st : St) (op : Op) (l u : Nat) (d : Int) (x : Line) (hx : st.line l = some x)
      (hop : op = .lineGet l u ∧ d = 1 ∨ op = .linePut l u ∧ d = -1) (hu : u ≠ uLink)
      (hd : 0 ≤ cnt x.uses u + d) (ht : 0 < total x.uses + d) :
      Tr st op (setLine st l (some { x with uses := addUse x.uses u d })) []
  | free (st : St) (l u : Nat) (x : Line) (hx : st.line l = some x) (hu : u ≠ uLink)
      (hd : 0 < cnt x.uses u) (ht : total x.uses = 1) :
      Tr st (.linePut l u) { setLine st l none with reg := st.reg.erase l } [.lineFree l]
  | linkCreate (st : St) (r : TsRef) (ty trx : Nat) (tei sapi : Byte) (x : Line) (ls : List Nat) (d : Int)
      (hr : r.2 < 32) (hx : st.line r.1 = some x) (hu : (st.ts r).u = .sign ls d)
      (hc : ∀ l u, credit st (.linkCreate r ty trx tei sapi) l u = if r.1 = l ∧ u = uLink then 1 else 0) :
      Tr st (.linkCreate r ty trx tei sapi)
        (setLink (setTs { setLine st r.1 (some { x with uses := addUse x.uses uLink 1 }) with
            nextLink := st.nextLink + 1 } r { st.ts r with u := .sign (ls ++ [st.nextLink]) d }) st.nextLink
          (some { ts := r, type := ty, trx := trx, tei := tei, sapi := sapi, tx := [], onList := true })) []
  | begin (st : St) (k : Nat) (x : Link) (ls : List Nat) (d : Int) (close : List Act)
      (hk : st.link k = some x) (hon : x.onList = true) (hu : (st.ts x.ts).u = .sign ls d) (hm : k ∈ ls)
      (hcl : close = [] ∨ close = [.drvClose k]) :
      Tr st (.destroyBegin k)
        (setLink (setTs st x.ts { st.ts x.ts with u := .sign (ls.erase k) d, tmr := .idle }) k
          (some { x with onList := false, tx := [] })) (x.tx.map .free ++ close)
  | fin (st : St) (k : Nat) (x : Link) (l : Line) (hk : st.link k = some x) (hoff : x.onList = false)
      (hl : st.line x.ts.1 = some l) (ht : 1 < total l.uses) :
      Tr st (.destroyEnd k)
        (setLink (setLine st x.ts.1 (some { l with uses := addUse l.uses uLink (-1) })) k none) [.linkFree k]
  | finFree (st : St) (k : Nat) (x : Link) (l : Line) (hk : st.link k = some x) (hoff : x.onList = false)
      (hl : st.line x.ts.1 = some l) (ht : total l.uses = 1) :
      Tr st (.destroyEnd k)
        (setLink { setLine st x.ts.1 none with reg := st.reg.erase x.ts.1 } k none)
        [.lineFree x.ts.1, .linkFree k]

/-! ### the invariant is kept -/

theorem linksOn_congr {st st' : St} (hn : st'.nextLink = st.nextLink)
    (h : ∀ k, (st'.link k).map (·.ts.1) = (st.link k).map (·.ts.1)) (l : Nat) : linksOn st' l = linksOn st l := by
  unfold linksOn
  rw [hn]
  apply countP_same
  intro k _
  have := h k
  cases h1 : st'.link k <;> cases h2 : st.link k <;> simp_all

theorem core_setLine {st : St} (h : Core st) {l : Nat} {x x' : Line} (hx : st.line l = some x)
    (hn : x'.num = x.num) : Core (setLine st l (some x')) := by
  have hlive : ∀ l', Live (setLine st l (some x')) l' ↔ Live st l' := by
    intro l'
    simp only [Live, setLine]
    by_cases e : l' = l
    · subst e; simp [hx]
    · simp [e]
  have hat : ∀ r, At (setLine st l (some x')) r ↔ At st r := by
    intro r; simp only [At, hlive]
  refine ⟨h.regNodup, fun l' hl => (hlive l').2 (h.regLive l' hl), ?_, ?_, h.linkLt, ?_, ?_, ?_, ?_⟩
  · intro a y b z ha hb ea eb en
    simp only [setLine] at ea eb
    have fa : ∃ y', st.line a = some y' ∧ y'.num = y.num := by
      by_cases e : a = l
      · simp only [e, if_true, Option.some.injEq] at ea; subst ea; exact ⟨x, e ▸ hx, hn.symm⟩
      · simp only [e, if_false] at ea; exact ⟨y, ea, rfl⟩
    have fb : ∃ y', st.line b = some y' ∧ y'.num = z.num := by
      by_cases e : b = l
      · simp only [e, if_true, Option.some.injEq] at eb; subst eb; exact ⟨x, e ▸ hx, hn.symm⟩
      · simp only [e, if_false] at eb; exact ⟨z, eb, rfl⟩
    obtain ⟨y', ya, yn⟩ := fa
    obtain ⟨z', za, zn⟩ := fb
    exact h.regNum a y' b z' ha hb ya za (by rw [yn, zn, en])
  · intro l' y hy
    have : Live st l' := (hlive l').1 ⟨y, hy⟩
    obtain ⟨y', hy'⟩ := this
    exact h.lineLt l' y' hy'
  · intro r hr; exact h.ts r ((hat r).1 hr)
  · intro r hr; exact h.lsNodup r ((hat r).1 hr)
  · intro r hr; exact h.ls r ((hat r).1 hr)
  · intro k y hy; obtain ⟨a, b⟩ := h.link k y hy; exact ⟨(hat _).2 a, b⟩

theorem core_freeLine {st : St} (h : Core st) {l : Nat} (hno : ∀ k x, st.link k = some x → x.ts.1 ≠ l) :
    Core { setLine st l none with reg := st.reg.erase l } := by
  have hlive : ∀ l', Live { setLine st l none with reg := st.reg.erase l } l' → Live st l' ∧ l' ≠ l := by
    rintro l' ⟨x, hx⟩
    simp only [setLine] at hx
    by_cases e : l' = l
    · simp [e] at hx
    · exact ⟨⟨x, by simpa [e] using hx⟩, e⟩
  have hlive' : ∀ l', Live st l' → l' ≠ l → Live { setLine st l none with reg := st.reg.erase l } l' := by
    rintro l' ⟨x, hx⟩ e
    exact ⟨x, by simp only [setLine, e, if_false]; exact hx⟩
  have hat : ∀ r, At { setLine st l none with reg := st.reg.erase l } r → At st r :=
    fun r hr => ⟨(hlive _ hr.1).1, hr.2⟩
  refine ⟨h.regNodup.erase l, ?_, ?_, ?_, h.linkLt, ?_, ?_, ?_, ?_⟩
  · intro l' hl
    have := (h.regNodup.mem_erase_iff).1 hl
    exact hlive' _ (h.regLive l' this.2) this.1
  · intro a y b z ha hb ea eb en
    have ha := (h.regNodup.mem_erase_iff).1 ha
    have hb := (h.regNodup.mem_erase_iff).1 hb
    simp only [setLine, ha.1, hb.1, if_false] at ea eb
    exact h.regNum a y b z ha.2 hb.2 ea eb en
  · intro l' y hy
    obtain ⟨y', hy'⟩ := (hlive l' ⟨y, hy⟩).1
    exact h.lineLt l' y' hy'
  · intro r hr; exact h.ts r (hat r hr)
  · intro r hr; exact h.lsNodup r (hat r hr)
  · intro r hr; exact h.ls r (hat r hr)
  · intro k y hy; obtain ⟨a, b⟩ := h.link k y hy; exact ⟨⟨hlive' _ a.1 (hno k y hy), a.2⟩, b⟩

theorem core_delLink {st : St} (h : Core st) {k : Nat} {x : Link} (hk : st.link k = some x)
    (hoff : x.onList = false) : Core (setLink st k none) := by
  refine ⟨h.regNodup, h.regLive, h.regNum, h.lineLt, ?_, h.ts, h.lsNodup, ?_, ?_⟩
  · intro j y hy
    simp only [setLink] at hy
    by_cases e : j = k
    · simp [e] at hy
    · exact h.linkLt j y (by simpa [e] using hy)
  · intro r hr j hj
    obtain ⟨y, y1, y2, y3⟩ := h.ls r hr j hj
    have e : j ≠ k := by
      rintro rfl; rw [hk] at y1; cases y1; rw [hoff] at y3; cases y3
    exact ⟨y, by simp only [setLink, e, if_false]; exact y1, y2, y3⟩
  · intro j y hy
    simp only [setLink] at hy
    by_cases e : j = k
    · simp [e] at hy
    · exact h.link j y (by simpa [e] using hy)

theorem linksOn_delLink {st : St} {k : Nat} {x : Link} (hk : st.link k = some x) (hlt : k < st.nextLink)
    (l : Nat) : (linksOn (setLink st k none) l : Int) = linksOn st l - if x.ts.1 = l then 1 else 0 := by
  have := countP_update (n := st.nextLink) (k := k) hlt
    (p := fun k => (st.link k).any fun x => x.ts.1 == l)
    (q := fun k' => ((setLink st k none).link k').any fun x => x.ts.1 == l)
    (by intro j hj; simp [setLink, hj])
  simp only [hk, setLink, if_true, Option.any_some, Option.any_none, beq_iff_eq, Bool.false_eq_true,
    if_false] at this
  unfold linksOn setLink
  simp only
  split <;> simp_all <;> omega

theorem linksOn_newLink {st : St} {x : Link} (l : Nat) (hlt : ∀ k y, st.link k = some y → k < st.nextLink) :
    (linksOn (setLink { st with nextLink := st.nextLink + 1 } st.nextLink (some x)) l : Int)
      = linksOn st l + if x.ts.1 = l then 1 else 0 := by
  unfold linksOn setLink
  simp only [List.range_succ, List.countP_append, List.countP_singleton, if_true, Option.any_some, beq_iff_eq]
  rw [countP_same (p := fun k => (st.link k).any fun x => x.ts.1 == l)]
  · split <;> simp
  · intro j hj
    rw [if_neg (by omega)]

theorem inv_tr {st st' : St} {op : Op} {acts : List Act} (h : Inv st) (t : Tr st op st' acts) : Inv st' := by
  cases t with
  | pure op ds =>
    exact ⟨⟨h.regNodup, h.regLive, h.regNum, h.lineLt, h.linkLt, h.ts, h.lsNodup, h.ls, h.link⟩, h.uses⟩
  | bind l x ops hx =>
    refine ⟨core_setLine h.toCore hx rfl, ?_⟩
    intro l' y hy
    simp only [setLine] at hy
    by_cases e : l' = l
    · simp only [e, if_true, Option.some.injEq] at hy; subst hy; subst e; exact h.uses _ x hx
    · simp only [e, if_false] at hy; exact h.uses l' y hy
  | ts op r t acts hr ht hl =>
    refine ⟨⟨h.regNodup, h.regLive, h.regNum, h.lineLt, h.linkLt, ?_, ?_, ?_, ?_⟩, h.uses⟩
    · intro r' hr'
      simp only [setTs]
      by_cases e : r' = r
      · rw [if_pos e, e]; exact ht
      · rw [if_neg e]; exact h.ts r' hr'
    · intro r' hr'
      simp only [setTs]
      by_cases e : r' = r
      · rw [if_pos e, hl]; exact h.lsNodup r hr
      · rw [if_neg e]; exact h.lsNodup r' hr'
    · intro r' hr'
      simp only [setTs]
      by_cases e : r' = r
      · rw [if_pos e, hl, e]; exact h.ls r hr
      · rw [if_neg e]; exact h.ls r' hr'
    · intro k x hx
      obtain ⟨a, b⟩ := h.link k x hx
      refine ⟨a, ?_⟩
      intro ho
      simp only [setTs]
      by_cases e : x.ts = r
      · rw [if_pos e, hl, ← e]; exact b ho
      · rw [if_neg e]; exact b ho
  | link op k x q t acts hk hon ht hl =>
    have hr := (h.link k x hk).1
    refine ⟨⟨h.regNodup, h.regLive, h.regNum, h.lineLt, ?_, ?_, ?_, ?_, ?_⟩, ?_⟩
    · intro j y hy
      simp only [setTs, setLink] at hy
      by_cases e : j = k
      · rw [e]; exact h.linkLt k x hk
      · rw [if_neg e] at hy; exact h.linkLt j y hy
    · intro r' hr'
      simp only [setTs]
      by_cases e : r' = x.ts
      · rw [if_pos e, e]; exact ht
      · rw [if_neg e]; exact h.ts r' hr'
    · intro r' hr'
      simp only [setTs]
      by_cases e : r' = x.ts
      · rw [if_pos e, hl]; exact h.lsNodup x.ts hr
      · rw [if_neg e]; exact h.lsNodup r' hr'
    · intro r' hr'
      have key : ∀ j ∈ linksOf (st.ts r').u, ∃ y, (setLink st k (some { x with tx := q })).link j = some y ∧
          y.ts = r' ∧ y.onList = true := by
        intro j hj
        obtain ⟨y, y1, y2, y3⟩ := h.ls r' hr' j hj
        simp only [setLink]
        by_cases e : j = k
        · subst e
          rw [hk] at y1; cases y1
          exact ⟨_, if_pos rfl, y2, y3⟩
        · exact ⟨y, by rw [if_neg e]; exact y1, y2, y3⟩
      simp only [setTs]
      by_cases e : r' = x.ts
      · subst e; rw [if_pos rfl, hl]; exact key
      · rw [if_neg e]; exact key
    · intro j y hy
      have : ∃ y', st.link j = some y' ∧ y'.ts = y.ts ∧ y'.onList = y.onList := by
        simp only [setTs, setLink] at hy
        by_cases e : j = k
        · rw [if_pos e] at hy; cases hy; exact ⟨x, e ▸ hk, rfl, rfl⟩
        · rw [if_neg e] at hy; exact ⟨y, hy, rfl, rfl⟩
      obtain ⟨y', y1, y2, y3⟩ := this
      obtain ⟨a, b⟩ := h.link j y' y1
      rw [y2] at a b; rw [y3] at b
      refine ⟨a, ?_⟩
      intro ho
      simp only [setTs]
      by_cases e : y.ts = x.ts
      · rw [if_pos e, hl, ← e]; exact b ho
      · rw [if_neg e]; exact b ho
    · intro l y hy
      obtain ⟨a, b, c⟩ := h.uses l y hy
      refine ⟨a, b, ?_⟩
      rw [c]
      congr 1
      symm
      apply linksOn_congr
      · rfl
      · intro j
        simp only [setTs, setLink]
        by_cases e : j = k
        · rw [if_pos e, e, hk]; rfl
        · rw [if_neg e]
  | create nr name d hn hd hok hc =>
    have hfresh : st.line st.nextLine = none := by
      cases e : st.line st.nextLine with
      | none => rfl
      | some x => exact absurd (h.lineLt _ x e) (by omega)
    have hne : ∀ l, Live st l → l ≠ st.nextLine := by
      rintro l ⟨x, hx⟩ rfl; rw [hfresh] at hx; cases hx
    have hregne : st.nextLine ∉ st.reg := fun hm => hne _ (h.regLive _ hm) rfl
    have hno : ∀ k x, st.link k = some x → x.ts.1 ≠ st.nextLine := fun k x hx => hne _ (h.link k x hx).1.1
    refine ⟨⟨?_, ?_, ?_, ?_, h.linkLt, ?_, ?_, ?_, ?_⟩, ?_⟩
    · exact List.nodup_append.2 ⟨h.regNodup, by simp, by
        intro a ha b hb; simp only [List.mem_singleton] at hb; subst hb; intro e; exact hregne (e ▸ ha)⟩
    · intro l hl
      simp only [List.mem_append, List.mem_singleton] at hl
      by_cases e : l = st.nextLine
      · exact ⟨{ num := nr, driver := d, ops := none, uses := [(uCtor, 1)], pcapFd := -1 }, by simp only [e, if_true]⟩
      · rcases hl with hl | hl
        · obtain ⟨x, hx⟩ := h.regLive l hl
          exact ⟨x, by simp only [e, if_false]; exact hx⟩
        · exact absurd hl e
    · intro a y b z ha hb ea eb en
      simp only [List.mem_append, List.mem_singleton] at ha hb
      by_cases e1 : a = st.nextLine <;> by_cases e2 : b = st.nextLine
      · rw [e1, e2]
      · simp only [e1, e2, if_true, if_false, Option.some.injEq] at ea eb
        subst ea
        exact absurd en.symm (hn b z (by rcases hb with h' | h'; exact h'; exact absurd h' e2) eb)
      · simp only [e1, e2, if_true, if_false, Option.some.injEq] at ea eb
        subst eb
        exact absurd en (hn a y (by rcases ha with h' | h'; exact h'; exact absurd h' e1) ea)
      · simp only [e1, e2, if_false] at ea eb
        exact h.regNum a y b z (by rcases ha with h' | h'; exact h'; exact absurd h' e1)
          (by rcases hb with h' | h'; exact h'; exact absurd h' e2) ea eb en
    · intro l x hx
      by_cases e : l = st.nextLine
      · simp only [e]; omega
      · simp only [e, if_false] at hx
        have := h.lineLt l x hx
        simp only; omega
    · intro r hr
      by_cases e : r.1 = st.nextLine
      · simp only [e, if_true]
        refine ⟨rfl, ?_, ?_, ?_, ?_, ?_⟩ <;> simp [freshTs, IsSign]
      · simp only [e, if_false]
        apply h.ts
        obtain ⟨⟨x, hx⟩, h2⟩ := hr
        simp only [e, if_false] at hx
        exact ⟨⟨x, hx⟩, h2⟩
    · intro r hr
      by_cases e : r.1 = st.nextLine
      · simp only [e, if_true]; simp [freshTs, linksOf]
      · simp only [e, if_false]
        apply h.lsNodup
        obtain ⟨⟨x, hx⟩, h2⟩ := hr
        simp only [e, if_false] at hx
        exact ⟨⟨x, hx⟩, h2⟩
    · intro r hr
      by_cases e : r.1 = st.nextLine
      · simp only [e, if_true]; simp [freshTs, linksOf]
      · simp only [e, if_false]
        apply h.ls
        obtain ⟨⟨x, hx⟩, h2⟩ := hr
        simp only [e, if_false] at hx
        exact ⟨⟨x, hx⟩, h2⟩
    · intro k x hx
      have hx' : st.link k = some x := hx
      have e := hno k x hx'
      obtain ⟨⟨⟨y, hy⟩, b⟩, c⟩ := h.link k x hx'
      refine ⟨⟨⟨y, by simp only [e, if_false]; exact hy⟩, b⟩, ?_⟩
      simp only [e, if_false]; exact c
    · intro l x hx
      by_cases e : l = st.nextLine
      · simp only [e, if_true, Option.some.injEq] at hx
        subst hx
        refine ⟨⟨by simp, by simp⟩, by simp [total], ?_⟩
        have : linksOn st l = 0 := by
          unfold linksOn
          rw [List.countP_eq_zero]
          intro k _
          cases hk : st.link k with
          | none => simp
          | some x => simpa [e] using hno k x hk
        show cnt [(uCtor, 1)] uLink = (linksOn st l : Int)
        rw [this]; decide
      · simp only [e, if_false] at hx
        exact h.uses l x hx
  | clone l u x hx hu ht =>
    have hfresh : st.line st.nextLine = none := by
      cases e : st.line st.nextLine with
      | none => rfl
      | some x => exact absurd (h.lineLt _ x e) (by omega)
    have hne : ∀ l, Live st l → l ≠ st.nextLine := by
      rintro l ⟨x, hx⟩ rfl; rw [hfresh] at hx; cases hx
    have hno : ∀ k x, st.link k = some x → x.ts.1 ≠ st.nextLine := fun k x hx => hne _ (h.link k x hx).1.1
    refine ⟨⟨h.regNodup, ?_, ?_, ?_, h.linkLt, ?_, ?_, ?_, ?_⟩, ?_⟩
    · intro a ha
      obtain ⟨y, hy⟩ := h.regLive a ha
      exact ⟨y, by simp only [hne a ⟨y, hy⟩, if_false]; exact hy⟩
    · intro a y b z ha hb ea eb en
      have e1 := hne a (h.regLive a ha)
      have e2 := hne b (h.regLive b hb)
      simp only [e1, e2, if_false] at ea eb
      exact h.regNum a y b z ha hb ea eb en
    · intro l x hx
      by_cases e : l = st.nextLine
      · simp only [e]; omega
      · simp only [e, if_false] at hx
        have := h.lineLt l x hx
        simp only; omega
    · intro r hr
      by_cases e : r.1 = st.nextLine
      · simp only [e, if_true]
        have e' := ht r.2 hr.2
        have ho := h.ts (l, r.2) ⟨⟨x, hx⟩, hr.2⟩
        refine ⟨rfl, ?_, ?_, ?_, ?_, ?_⟩
        · simp [cloneTs, e']
        · simp [cloneTs, e', IsSign]
        · intro hp; exact absurd (ho.pend hp) (by simp [e', linksOf])
        · simp [cloneTs, e']
        · simp [cloneTs, e']
      · simp only [e, if_false]
        apply h.ts
        obtain ⟨⟨x, hx⟩, h2⟩ := hr
        simp only [e, if_false] at hx
        exact ⟨⟨x, hx⟩, h2⟩
    · intro r hr
      by_cases e : r.1 = st.nextLine
      · simp only [e, if_true]; simp [cloneTs, ht r.2 hr.2, linksOf]
      · simp only [e, if_false]
        apply h.lsNodup
        obtain ⟨⟨x, hx⟩, h2⟩ := hr
        simp only [e, if_false] at hx
        exact ⟨⟨x, hx⟩, h2⟩
    · intro r hr
      by_cases e : r.1 = st.nextLine
      · simp only [e, if_true]; simp [cloneTs, ht r.2 hr.2, linksOf]
      · simp only [e, if_false]
        apply h.ls
        obtain ⟨⟨x, hx⟩, h2⟩ := hr
        simp only [e, if_false] at hx
        exact ⟨⟨x, hx⟩, h2⟩
    · intro k x hx
      have hx' : st.link k = some x := hx
      have e := hno k x hx'
      obtain ⟨⟨⟨y, hy⟩, b⟩, c⟩ := h.link k x hx'
      refine ⟨⟨⟨y, by simp only [e, if_false]; exact hy⟩, b⟩, ?_⟩
      simp only [e, if_false]; exact c
    · intro l x hx
      by_cases e : l = st.nextLine
      · simp only [e, if_true, Option.some.injEq] at hx
        subst hx
        refine ⟨⟨by simp, by simp⟩, by simp [total], ?_⟩
        have : linksOn st l = 0 := by
          unfold linksOn
          rw [List.countP_eq_zero]
          intro k _
          cases hk : st.link k with
          | none => simp
          | some x => simpa [e] using hno k x hk
        show cnt [(u, 1)] uLink = (linksOn st l : Int)
        rw [this, cnt_cons, if_neg hu]; rfl
      · simp only [e, if_false] at hx
        exact h.uses l x hx
  | use op l u d x hx hop hu hd ht =>
    refine ⟨core_setLine h.toCore hx rfl, ?_⟩
    intro l' y hy
    simp only [setLine] at hy
    by_cases e : l' = l
    · simp only [e, if_true, Option.some.injEq] at hy; subst hy; subst e
      obtain ⟨a, b, c⟩ := h.uses _ x hx
      refine ⟨a.add u d hd, by rw [total_addUse]; exact ht, ?_⟩
      rw [cnt_addUse, if_neg (Ne.symm hu), c]; simp only [Int.add_zero]; rfl
    · simp only [e, if_false] at hy; exact h.uses l' y hy
  | free l u x hx hu hd ht =>
    have hz : linksOn st l = 0 := by
      obtain ⟨a, b, c⟩ := h.uses l x hx
      have h1 : total (addUse x.uses u (-1)) = 0 := by rw [total_addUse]; omega
      have h2 := a.add u (-1) (by omega)
      have h3 : ¬ ∃ v, 0 < cnt (addUse x.uses u (-1)) v := fun hh => by
        have := (total_pos_iff h2).2 hh; omega
      have h4 : cnt x.uses uLink = 0 := by
        have h5 := cnt_nonneg a uLink
        have h6 : cnt (addUse x.uses u (-1)) uLink = cnt x.uses uLink := by
          rw [cnt_addUse, if_neg (Ne.symm hu)]; omega
        rcases Int.lt_or_eq_of_le h5 with h7 | h7
        · exact absurd ⟨uLink, by rw [h6]; exact h7⟩ h3
        · exact h7.symm
      omega
    refine ⟨core_freeLine h.toCore (fun k x hx => linksOn_zero hz h.linkLt hx), ?_⟩
    intro l' y hy
    simp only [setLine] at hy
    by_cases e : l' = l
    · simp [e] at hy
    · exact h.uses l' y (by simpa [e] using hy)
  | linkCreate r ty trx tei sapi x ls d hr hx hu hc =>
    have hc1 := core_setLine h.toCore hx (x' := { x with uses := addUse x.uses uLink 1 }) rfl
    have hat : At st r := ⟨⟨x, hx⟩, hr⟩
    have hfresh : st.link st.nextLink = none := by
      cases e : st.link st.nextLink with
      | none => rfl
      | some x => exact absurd (h.linkLt _ x e) (by omega)
    have hnot : st.nextLink ∉ ls := by
      intro hm
      obtain ⟨y, y1, _⟩ := h.ls r hat st.nextLink (by rw [hu]; exact hm)
      rw [hfresh] at y1; cases y1
    have hto := h.ts r hat
    refine ⟨⟨hc1.regNodup, hc1.regLive, hc1.regNum, hc1.lineLt, ?_, ?_, ?_, ?_, ?_⟩, ?_⟩
    · intro k y hy
      simp only [setLink, setTs, setLine] at hy ⊢
      by_cases e : k = st.nextLink
      · omega
      · rw [if_neg e] at hy; have := h.linkLt k y hy; omega
    · intro r' hr'
      simp only [setLink, setTs, setLine]
      by_cases e : r' = r
      · rw [if_pos e, e]
        exact ⟨hto.line, by simp, fun _ => hto.sign ⟨ls, d, hu⟩, by simp [linksOf], by simp, by simp⟩
      · rw [if_neg e]; exact hc1.ts r' hr'
    · intro r' hr'
      simp only [setLink, setTs, setLine]
      by_cases e : r' = r
      · rw [if_pos e]
        have := h.lsNodup r hat
        rw [hu] at this
        exact List.nodup_append.2 ⟨this, by simp, by
          intro a ha b hb; simp only [List.mem_singleton] at hb; subst hb; intro e; exact hnot (e ▸ ha)⟩
      · rw [if_neg e]; exact hc1.lsNodup r' hr'
    · intro r' hr'
      have hk : ∀ k ∈ linksOf (st.ts r').u, ∃ y,
          (if k = st.nextLink then some ({ ts := r, type := ty, trx := trx, tei := tei, sapi := sapi, tx := [], onList := true } : Link)
            else st.link k) = some y ∧ y.ts = r' ∧ y.onList = true := by
        intro k hkm
        obtain ⟨y, y1, y2, y3⟩ := hc1.ls r' hr' k hkm
        have : k ≠ st.nextLink := by rintro rfl; rw [show (setLine st r.1 _).link = st.link from rfl, hfresh] at y1; cases y1
        exact ⟨y, by rw [if_neg this]; exact y1, y2, y3⟩
      simp only [setLink, setTs, setLine]
      by_cases e : r' = r
      · rw [if_pos e]
        intro k hkm
        simp only [linksOf, List.mem_append, List.mem_singleton] at hkm
        rcases hkm with hkm | hkm
        · apply hk; rw [e, hu]; exact hkm
        · exact ⟨_, if_pos hkm, e.symm, rfl⟩
      · rw [if_neg e]; exact hk
    · intro k y hy
      simp only [setLink, setTs, setLine] at hy ⊢
      by_cases e : k = st.nextLink
      · rw [if_pos e] at hy
        cases hy
        refine ⟨⟨⟨{ x with uses := addUse x.uses uLink 1 }, by simp⟩, hr⟩, ?_⟩
        intro _
        simp [linksOf, e]
      · rw [if_neg e] at hy
        obtain ⟨a, b⟩ := hc1.link k y hy
        refine ⟨a, ?_⟩
        intro ho
        have b' : k ∈ linksOf (st.ts y.ts).u := b ho
        by_cases e' : y.ts = r
        · rw [if_pos e']
          rw [e', hu] at b'
          simp only [linksOf, List.mem_append] at b' ⊢
          exact .inl b'
        · rw [if_neg e']; exact b'
    · intro l y hy
      have hcount := linksOn_newLink (st := st) (x := { ts := r, type := ty, trx := trx, tei := tei, sapi := sapi, tx := [], onList := true })
        l h.linkLt
      have heq : linksOn (setLink (setTs { setLine st r.1 (some { x with uses := addUse x.uses uLink 1 }) with
            nextLink := st.nextLink + 1 } r { st.ts r with u := .sign (ls ++ [st.nextLink]) d }) st.nextLink
          (some { ts := r, type := ty, trx := trx, tei := tei, sapi := sapi, tx := [], onList := true })) l
          = linksOn (setLink { st with nextLink := st.nextLink + 1 } st.nextLink (some { ts := r, type := ty, trx := trx, tei := tei, sapi := sapi, tx := [], onList := true })) l := rfl
      rw [heq, hcount]
      simp only [setLink, setTs, setLine] at hy
      by_cases e : l = r.1
      · simp only [e, if_true, Option.some.injEq] at hy; subst hy; subst e
        obtain ⟨a, b, c⟩ := h.uses _ x hx
        refine ⟨a.add _ _ (by have := cnt_nonneg a uLink; omega), by rw [total_addUse]; omega, ?_⟩
        rw [cnt_addUse, c]; simp
      · simp only [e, if_false] at hy
        obtain ⟨a, b, c⟩ := h.uses l y hy
        refine ⟨a, b, ?_⟩
        rw [c, if_neg (Ne.symm e)]; omega
  | begin k x ls d close hk hon hu hm hcl =>
    have hat := (h.link k x hk).1
    have hto := h.ts x.ts hat
    have hnd : ls.Nodup := by have := h.lsNodup x.ts hat; rw [hu] at this; exact this
    refine ⟨⟨h.regNodup, h.regLive, h.regNum, h.lineLt, ?_, ?_, ?_, ?_, ?_⟩, ?_⟩
    · intro j y hy
      simp only [setTs, setLink] at hy
      by_cases e : j = k
      · rw [e]; exact h.linkLt k x hk
      · rw [if_neg e] at hy; exact h.linkLt j y hy
    · intro r' hr'
      simp only [setTs, setLink]
      by_cases e : r' = x.ts
      · rw [if_pos e, e]
        exact ⟨hto.line, by simp, by simp, by simp, by simp, by simp⟩
      · rw [if_neg e]; exact h.ts r' hr'
    · intro r' hr'
      simp only [setTs, setLink]
      by_cases e : r' = x.ts
      · rw [if_pos e]; exact hnd.erase k
      · rw [if_neg e]; exact h.lsNodup r' hr'
    · intro r' hr'
      simp only [setTs, setLink]
      have key : ∀ j ∈ linksOf (st.ts r').u, j ≠ k → ∃ y, (if j = k then some { x with onList := false, tx := [] } else st.link j) = some y ∧
          y.ts = r' ∧ y.onList = true := by
        intro j hj hne
        obtain ⟨y, y1, y2, y3⟩ := h.ls r' hr' j hj
        exact ⟨y, by rw [if_neg hne]; exact y1, y2, y3⟩
      by_cases e : r' = x.ts
      · rw [if_pos e]
        intro j hj
        have := (hnd.mem_erase_iff).1 hj
        exact key j (by rw [e, hu]; exact this.2) this.1
      · rw [if_neg e]
        intro j hj
        apply key j hj
        rintro rfl
        obtain ⟨y, y1, y2, y3⟩ := h.ls r' hr' j hj
        rw [hk] at y1; cases y1; exact e y2.symm
    · intro j y hy
      simp only [setTs, setLink] at hy ⊢
      by_cases e : j = k
      · rw [if_pos e] at hy; cases hy
        exact ⟨hat, by simp⟩
      · rw [if_neg e] at hy
        obtain ⟨a, b⟩ := h.link j y hy
        refine ⟨a, ?_⟩
        intro ho
        by_cases e' : y.ts = x.ts
        · rw [if_pos e']
          have := b ho
          rw [e', hu] at this
          exact (hnd.mem_erase_iff).2 ⟨e, this⟩
        · rw [if_neg e']; exact b ho
    · intro l y hy
      obtain ⟨a, b, c⟩ := h.uses l y hy
      refine ⟨a, b, ?_⟩
      rw [c]
      congr 1
      symm
      apply linksOn_congr
      · rfl
      · intro j
        simp only [setTs, setLink]
        by_cases e : j = k
        · rw [if_pos e, e, hk]; rfl
        · rw [if_neg e]
  | fin k x l hk hoff hl ht =>
    have c1 := core_setLine h.toCore hl (x' := { l with uses := addUse l.uses uLink (-1) }) rfl
    refine ⟨core_delLink c1 hk hoff, ?_⟩
    intro l' y hy
    have hcount := linksOn_delLink hk (h.linkLt k x hk) l'
    have heq : linksOn (setLink (setLine st x.ts.1 (some { l with uses := addUse l.uses uLink (-1) })) k none) l'
      = linksOn (setLink st k none) l' := rfl
    rw [heq, hcount]
    simp only [setLink, setLine] at hy
    by_cases e : l' = x.ts.1
    · simp only [e, if_true, Option.some.injEq] at hy; subst hy; subst e
      obtain ⟨a, b, c⟩ := h.uses _ l hl
      have hpos : 0 < linksOn st x.ts.1 := by
        unfold linksOn
        rw [List.countP_pos_iff]
        exact ⟨k, List.mem_range.2 (h.linkLt k x hk), by simp [hk]⟩
      refine ⟨a.add _ _ (by omega), by rw [total_addUse]; omega, ?_⟩
      rw [cnt_addUse, c]; simp; omega
    · simp only [e, if_false] at hy
      obtain ⟨a, b, c⟩ := h.uses l' y hy
      refine ⟨a, b, ?_⟩
      rw [c, if_neg (Ne.symm e)]; omega
  | finFree k x l hk hoff hl ht =>
    obtain ⟨a, b, c⟩ := h.uses _ l hl
    have hpos : 0 < linksOn st x.ts.1 := by
      unfold linksOn
      rw [List.countP_pos_iff]
      exact ⟨k, List.mem_range.2 (h.linkLt k x hk), by simp [hk]⟩
    have hone : linksOn st x.ts.1 = 1 := by
      have h1 : total (addUse l.uses uLink (-1)) = 0 := by rw [total_addUse]; omega
      have h2 := a.add uLink (-1) (by omega)
      have h3 : ¬ ∃ v, 0 < cnt (addUse l.uses uLink (-1)) v := fun hh => by
        have := (total_pos_iff h2).2 hh; omega
      have h6 : cnt (addUse l.uses uLink (-1)) uLink = cnt l.uses uLink - 1 := by
        rw [cnt_addUse, if_pos rfl]; omega
      have h7 : ¬ 0 < cnt (addUse l.uses uLink (-1)) uLink := fun h8 => h3 ⟨uLink, h8⟩
      omega
    have hcnt := linksOn_delLink hk (h.linkLt k x hk)
    have hz : linksOn (setLink st k none) x.ts.1 = 0 := by
      have := hcnt x.ts.1
      rw [if_pos rfl] at this; omega
    have c1 := core_delLink h.toCore hk hoff
    have c2 := core_freeLine c1 (l := x.ts.1) (fun j y hy => linksOn_zero hz c1.linkLt hy)
    refine ⟨c2, ?_⟩
    intro l' y hy
    have heq : linksOn (setLink { setLine st x.ts.1 none with reg := st.reg.erase x.ts.1 } k none) l'
      = linksOn (setLink st k none) l' := rfl
    rw [heq]
    simp only [setLink, setLine] at hy
    by_cases e : l' = x.ts.1
    · simp [e] at hy
    · simp only [e, if_false] at hy
      obtain ⟨a, b, c⟩ := h.uses l' y hy
      refine ⟨a, b, ?_⟩
      have := hcnt l'
      rw [if_neg (Ne.symm e)] at this
      omega

end Verif.E1
