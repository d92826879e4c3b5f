import Verif.Proof.E1Tr
/-! Proof infrastructure: every admissible event succeeds and has one of the effects `Tr`. -/
set_option maxRecDepth 10000
namespace Verif.E1

theorem tsAt_ok {st : St} {r : TsRef} (h : At st r) : tsAt st r = .ok (st.ts r) := by
  obtain ⟨⟨x, hx⟩, h2⟩ := h
  simp only [tsAt, hx, if_pos h2]

theorem lineAt_ok {st : St} {l : Nat} {x : Line} (h : st.line l = some x) : lineAt st l = .ok x := by
  simp only [lineAt, h]

theorem linkAt_ok {st : St} {k : Nat} {x : Link} (h : st.link k = some x) : linkAt st k = .ok x := by
  simp only [linkAt, h]

theorem setTs_self (st : St) (r : TsRef) : setTs st r (st.ts r) = st := by
  cases st
  simp only [setTs, St.mk.injEq, true_and, and_true]
  funext r'
  split
  · subst_vars; rfl
  · rfl

theorem setTs_setTs (st : St) (r : TsRef) (a b : Ts) : setTs (setTs st r a) r b = setTs st r b := by
  simp only [setTs]
  congr 1
  funext r'
  split <;> rfl

theorem setTs_get (st : St) (r : TsRef) (t : Ts) : (setTs st r t).ts r = t := by simp [setTs]

theorem lookupIn_spec (st : St) (tei sapi : Byte) : ∀ (ls : List Nat),
    (∀ k ∈ ls, ∃ x, st.link k = some x) →
    (lookupIn st tei sapi ls = .ok none ∧ ∀ k ∈ ls, ∀ x, st.link k = some x → ¬ (x.tei = tei ∧ x.sapi = sapi)) ∨
    ∃ a k b x, ls = a ++ k :: b ∧ st.link k = some x ∧ x.tei = tei ∧ x.sapi = sapi ∧
      (∀ j ∈ a, ∀ y, st.link j = some y → ¬ (y.tei = tei ∧ y.sapi = sapi)) ∧
      lookupIn st tei sapi ls = .ok (some k) := by
  intro ls
  induction ls with
  | nil => intro _; left; exact ⟨rfl, by simp⟩
  | cons k r ih =>
    intro h
    obtain ⟨x, hx⟩ := h k (by simp)
    unfold lookupIn
    rw [linkAt_ok hx, bind_ok]
    by_cases hm : x.sapi = sapi ∧ x.tei = tei
    · rw [if_pos hm]
      right
      exact ⟨[], k, r, x, rfl, hx, hm.2, hm.1, by simp, rfl⟩
    · rw [if_neg hm]
      have hk : ∀ y, st.link k = some y → ¬ (y.tei = tei ∧ y.sapi = sapi) := by
        intro y hy he; rw [hx] at hy; cases hy; exact hm ⟨he.2, he.1⟩
      rcases ih (fun j hj => h j (by simp [hj])) with ⟨h1, h2⟩ | ⟨a, j, b, y, e, h1, h2, h3, h4, h5⟩
      · left
        refine ⟨h1, ?_⟩
        intro j hj
        simp only [List.mem_cons] at hj
        rcases hj with rfl | hj
        · exact hk
        · exact h2 j hj
      · right
        refine ⟨k :: a, j, b, y, by rw [e]; rfl, h1, h2, h3, ?_, h5⟩
        intro i hi
        simp only [List.mem_cons] at hi
        rcases hi with rfl | hi
        · exact hk
        · exact h4 i hi

theorem txScan_spec (st : St) : ∀ (ls : List Nat), (∀ k ∈ ls, ∃ x, st.link k = some x) →
    (txScan st ls = .ok (st, none) ∧ ∀ k ∈ ls, queueOf st k = []) ∨
    ∃ a k b x m ms, ls = a ++ k :: b ∧ st.link k = some x ∧ x.tx = m :: ms ∧ (∀ j ∈ a, queueOf st j = []) ∧
      txScan st ls = .ok (setLink st k (some { x with tx := ms }), some (k, m)) := by
  intro ls
  induction ls with
  | nil => intro _; left; exact ⟨rfl, by simp⟩
  | cons k r ih =>
    intro h
    obtain ⟨x, hx⟩ := h k (by simp)
    unfold txScan
    rw [linkAt_ok hx, bind_ok]
    cases hq : x.tx with
    | nil =>
      simp only
      have hk : queueOf st k = [] := by simp [queueOf, hx, hq]
      rcases ih (fun j hj => h j (by simp [hj])) with ⟨h1, h2⟩ | ⟨a, j, b, y, m, ms, e, h1, h2, h3, h4⟩
      · left
        refine ⟨h1, ?_⟩
        intro j hj
        simp only [List.mem_cons] at hj
        rcases hj with rfl | hj
        · exact hk
        · exact h2 j hj
      · right
        refine ⟨k :: a, j, b, y, m, ms, by rw [e]; rfl, h1, h2, ?_, h4⟩
        intro i hi
        simp only [List.mem_cons] at hi
        rcases hi with rfl | hi
        · exact hk
        · exact h3 i hi
    | cons m ms =>
      right
      exact ⟨[], k, r, x, m, ms, rfl, hx, hq, by simp, rfl⟩

theorem lineFindIn_spec (st : St) (nr : Byte) : ∀ (ls : List Nat), (∀ l ∈ ls, Live st l) →
    (lineFindIn st nr ls = .ok none ∧ ∀ l ∈ ls, ∀ x, st.line l = some x → x.num ≠ nr) ∨
    ∃ l x, l ∈ ls ∧ st.line l = some x ∧ x.num = nr ∧ lineFindIn st nr ls = .ok (some l) := by
  intro ls
  induction ls with
  | nil => intro _; left; exact ⟨rfl, by simp⟩
  | cons l r ih =>
    intro h
    obtain ⟨x, hx⟩ := h l (by simp)
    unfold lineFindIn
    rw [lineAt_ok hx, bind_ok]
    by_cases hm : x.num = nr
    · rw [if_pos hm]; right; exact ⟨l, x, by simp, hx, hm, rfl⟩
    · rw [if_neg hm]
      rcases ih (fun j hj => h j (by simp [hj])) with ⟨h1, h2⟩ | ⟨j, y, h1, h2, h3, h4⟩
      · left
        refine ⟨h1, ?_⟩
        intro j hj y hy
        simp only [List.mem_cons] at hj
        rcases hj with rfl | hj
        · rw [hx] at hy; cases hy; exact hm
        · exact h2 j hj y hy
      · right; exact ⟨j, y, by simp [h1], h2, h3, h4⟩

theorem muxOk_init : MuxOk Mux.init := by intro c _ e he; simp [Mux.init] at he

theorem dmxOk_init (d : Demux.Dmx) : DmxOk (Demux.init d) := by
  intro c _
  exact ⟨by simp [Demux.init, Demux.TRAU_FRAME_BITS], by simp [Demux.init]⟩

theorem muxOut_ok {m : Mux.Mux} (h : MuxOk m) (n : Nat) : ∃ bs m', Mux.muxOut m n = .ok (bs, m') ∧
    bs.length = n ∧ MuxOk m' := by
  obtain ⟨idle, i1, i2, _⟩ := Mux.idle_ok
  obtain ⟨bs, m', h1, h2, h3⟩ := Mux.muxOut_spec n m h idle i1 i2
  exact ⟨bs, m', h1, h2, fun c hc => by obtain ⟨k, hk⟩ := h3 c hc; exact hk.even⟩

theorem demuxIn_ok {d : Demux.Dmx} (h : DmxOk d) (bs : List Byte) : ∃ d' evs,
    Demux.demuxIn d bs = .ok (d', evs) ∧ DmxOk d' := by
  obtain ⟨r, h1, _, h2, _⟩ := Demux.demuxIn_eq bs d h
  refine ⟨r.1, r.2, h1, ?_⟩
  intro c hc
  rw [(h2 c hc).sub]
  split
  · exact Demux.runS_wf _ (h c hc) _
  · exact h c hc

theorem calm_nil : Calm [] := ⟨by simp [txOf], rfl, rfl⟩

theorem filterMap_nil_of {α β : Type} {f : α → Option β} {l : List α} (h : ∀ a ∈ l, f a = none) :
    l.filterMap f = [] := by
  induction l with
  | nil => rfl
  | cons a l ih =>
    rw [List.filterMap_cons, h a (by simp)]
    exact ih fun b hb => h b (by simp [hb])

/-- neither a transmission nor a release -/
def Quiet : Act → Prop
  | .tx _ (some _) _ => False
  | .lineFree _ => False
  | .linkFree _ => False
  | _ => True

theorem calm_of {acts : List Act} (h : ∀ a ∈ acts, Quiet a) : Calm acts := by
  refine ⟨?_, ?_, ?_⟩
  · intro k
    apply filterMap_nil_of
    intro a ha
    have := h a ha
    cases a with
    | tx r o m => cases o with | none => rfl | some j => exact this.elim
    | _ => rfl
  · apply filterMap_nil_of
    intro a ha
    have := h a ha
    cases a with
    | lineFree l => exact this.elim
    | _ => rfl
  · apply filterMap_nil_of
    intro a ha
    have := h a ha
    cases a with
    | linkFree l => exact this.elim
    | _ => rfl

theorem disposed_append (a b : List Act) : disposed (a ++ b) = disposed a ++ disposed b := by
  simp [disposed]

theorem disposed_free (q : List Msg) : disposed (q.map .free) = q := by
  induction q with
  | nil => rfl
  | cons m q ih => simp only [disposed] at ih; simp [disposed, disposes, ih]

theorem tracePcap_disposed (t : Ts) (l : Line) (o : Bool) (s e : Byte) (m : Msg) :
    disposed (tracePcap t l o s e m) = [] := by
  unfold tracePcap pcapActs
  split
  · rfl
  · split <;> rfl

theorem tracePcap_quiet (t : Ts) (l : Line) (o : Bool) (s e : Byte) (m : Msg) :
    ∀ a ∈ tracePcap t l o s e m, Quiet a := by
  unfold tracePcap pcapActs
  split
  · simp
  · split
    · simp
    · simp [Quiet]

/-- `cleanup` of a timeslot in order without links -/
theorem cleanup_ok {l : Nat} {t : Ts} (h : TsOk l t) : ∃ t' rc acts, cleanup t = .ok (t', rc, acts) ∧
    t'.line = t.line ∧ t'.tmr = t.tmr ∧ linksOf t'.u = linksOf t.u ∧ acts = (rawq t.u).map .free ∧
    t'.armed = t.armed ∧ t'.lapd = t.lapd ∧ t'.u.type = t.u.type := by
  unfold cleanup
  cases hu : t.u with
  | none => exact ⟨_, _, _, rfl, rfl, rfl, by rw [hu], rfl, rfl, rfl, by rw [hu]⟩
  | sign ls d => exact ⟨_, _, _, rfl, rfl, rfl, by rw [hu], rfl, rfl, rfl, by rw [hu]⟩
  | trau cb m => exact ⟨_, _, _, rfl, rfl, rfl, rfl, rfl, rfl, rfl, rfl⟩
  | raw cb q => exact ⟨_, _, _, rfl, rfl, rfl, rfl, rfl, rfl, rfl, rfl⟩
  | hdlc cb q => exact ⟨_, _, _, rfl, rfl, rfl, rfl, rfl, rfl, rfl, rfl⟩
  | i460 n => exact ⟨_, _, _, rfl, rfl, rfl, by rw [hu], rfl, rfl, rfl, by rw [hu]⟩
  | stale u => exact absurd hu (h.notStale u)

theorem free_quiet (q : List Msg) : ∀ a ∈ q.map Act.free, Quiet a := by
  intro a ha
  simp only [List.mem_map] at ha
  obtain ⟨m, _, rfl⟩ := ha
  trivial

/-- the nothing-happens case -/
theorem tr_nop (st : St) (op : Op) (he : enters st op = []) (hc : ∀ l u, credit st op l u = 0)
    (hs : ∀ k, sentTo k op = []) : Tr st op st [] :=
  Tr.pure st op st.drivers [] (by rw [he]; exact List.Perm.nil) hc hs calm_nil

/-- a timeslot without links gets a new configuration -/
theorem tr_config {st : St} (h : Inv st) (op : Op) (r : TsRef) (hr : At st r) (t : Ts)
    (ht : TsOk r.1 t) (hl : linksOf (st.ts r).u = []) (hl' : linksOf t.u = []) (hq : rawq t.u = [])
    (he : enters st op = []) (hc : ∀ l u, credit st op l u = 0) (hs : ∀ k, sentTo k op = []) :
    Tr st op (setTs st r t) ((rawq (st.ts r).u).map .free) := by
  refine Tr.ts st op r t _ hr ht (by rw [hl, hl']) ?_ hc hs (calm_of (free_quiet _)) (.inr (by rw [hl]; simp))
  rw [he, disposed_free, hq]; simp

theorem linksOf_nil_of_type {u : U} (h : u.type ≠ .sign) (hs : ∀ v, u ≠ .stale v) : linksOf u = [] := by
  cases u with
  | sign ls d => exact absurd rfl h
  | _ => rfl

theorem sameType_true {t : Ts} {ty : TsType} {l l' : Nat} (h : t.u.type = ty) (hl : t.line = some l) :
    sameType t ty (some l') = true := by
  simp [sameType, h, hl]

theorem sameType_false {t : Ts} {ty : TsType} {l' : Option Nat} (h : t.u.type ≠ ty) :
    sameType t ty l' = false := by
  simp [sameType, h]

theorem useChange_keep {st : St} {l u : Nat} {d : Int} {x : Line} (hx : st.line l = some x)
    (ht : 0 < total x.uses + d) :
    useChange st l u d = .ok (setLine st l (some { x with uses := addUse x.uses u d }), []) := by
  unfold useChange
  rw [lineAt_ok hx, bind_ok]
  simp only
  rw [if_pos (by rw [total_addUse]; exact ht)]

theorem useChange_free {st : St} {l u : Nat} {d : Int} {x : Line} (hx : st.line l = some x)
    (ht : total x.uses + d = 0) (hp : ∀ i < 32, (st.ts (l, i)).tmr ≠ .pending) :
    useChange st l u d = .ok ({ setLine st l none with reg := st.reg.erase l }, [.lineFree l]) := by
  unfold useChange
  rw [lineAt_ok hx, bind_ok]
  simp only
  rw [if_neg (by rw [total_addUse]; omega), if_neg]
  intro ha
  rw [List.any_eq_true] at ha
  obtain ⟨i, hi, he⟩ := ha
  exact hp i (List.mem_range.1 hi) (by simpa using he)

/-- a line all of whose references are gone has no running timer -/
theorem no_timer {st : St} (h : Inv st) {l : Nat} {x : Line} (hx : st.line l = some x)
    (hno : ∀ k y, st.link k = some y → y.ts.1 = l → y.onList = false) :
    ∀ i < 32, (st.ts (l, i)).tmr ≠ .pending := by
  intro i hi hp
  have hat : At st (l, i) := ⟨⟨x, hx⟩, hi⟩
  have hne := (h.ts (l, i) hat).pend hp
  cases hl : linksOf (st.ts (l, i)).u with
  | nil => exact hne hl
  | cons k r =>
    obtain ⟨y, y1, y2, y3⟩ := h.ls (l, i) hat k (by rw [hl]; simp)
    have := hno k y y1 (by rw [y2])
    rw [this] at y3; cases y3

theorem sign_of_type {u : U} (h : u.type = .sign) (hs : ∀ v, u ≠ .stale v) : ∃ ls d, u = .sign ls d := by
  cases u with
  | sign ls d => exact ⟨ls, d, rfl⟩
  | stale v => exact absurd rfl (hs v)
  | _ => simp [U.type] at h

theorem trau_of_type {u : U} (h : u.type = .trau) (hs : ∀ v, u ≠ .stale v) : ∃ cb m, u = .trau cb m := by
  cases u with
  | trau ls d => exact ⟨ls, d, rfl⟩
  | stale v => exact absurd rfl (hs v)
  | _ => simp [U.type] at h

theorem raw_of_type {u : U} (h : u.type = .raw) (hs : ∀ v, u ≠ .stale v) : ∃ cb m, u = .raw cb m := by
  cases u with
  | raw ls d => exact ⟨ls, d, rfl⟩
  | stale v => exact absurd rfl (hs v)
  | _ => simp [U.type] at h

theorem hdlc_of_type {u : U} (h : u.type = .hdlc) (hs : ∀ v, u ≠ .stale v) : ∃ cb m, u = .hdlc cb m := by
  cases u with
  | hdlc ls d => exact ⟨ls, d, rfl⟩
  | stale v => exact absurd rfl (hs v)
  | _ => simp [U.type] at h

/-- the timer of a timeslot without links is not running -/
theorem not_pending {l : Nat} {t : Ts} (h : TsOk l t) (hl : linksOf t.u = []) : t.tmr ≠ .pending :=
  fun hp => h.pend hp hl

/-- reception never changes the links and gives up the message exactly once -/
theorem rxTs_tr {st : St} (h : Inv st) {r : TsRef} (hr : At st r) (hb : HasType st r .sign → Bound st r)
    (m : Msg) (tei sapi : Byte) (op : Op) (he : enters st op = [m]) (hc : ∀ l u, credit st op l u = 0)
    (hs : ∀ k, sentTo k op = []) :
    ∃ st' rc acts, rxTs st r m tei sapi = .ok (st', rc, acts) ∧ Tr st op st' acts := by
  have hto := h.ts r hr
  unfold rxTs
  rw [tsAt_ok hr, bind_ok]
  cases hu : (st.ts r).u with
  | sign ls d =>
    obtain ⟨x, hx, ho⟩ := hb (by simp only [HasType, hu, U.type])
    simp only [lineOf, hto.line, lineAt_ok hx, bind_ok]
    have hls : ∀ k ∈ ls, ∃ x, st.link k = some x := by
      intro k hk
      obtain ⟨y, y1, _⟩ := h.ls r hr k (by rw [hu]; exact hk)
      exact ⟨y, y1⟩
    have fin : ∀ (o : Option Nat) (rc : Int) (acts : List Act), rxDeliver x m o = .ok (rc, acts) →
        (∀ a ∈ acts, Quiet a) → disposed acts = [m] →
        ∃ st' rc' acts', (do
            let (rc, acts) ← rxDeliver x m o
            Except.ok (st, rc, tracePcap (st.ts r) x false sapi tei m ++ acts) : M (St × Int × List Act))
          = .ok (st', rc', acts') ∧ Tr st op st' acts' := by
      intro o rc acts h1 h2 h3
      rw [h1, bind_ok]
      refine ⟨st, rc, _, rfl, Tr.pure st op st.drivers _ ?_ hc hs (calm_of ?_)⟩
      · rw [he, disposed_append, tracePcap_disposed, h3]; exact List.Perm.refl _
      · intro a ha
        rcases List.mem_append.1 ha with ha | ha
        · exact tracePcap_quiet _ _ _ _ _ _ a ha
        · exact h2 a ha
    rcases lookupIn_spec st tei sapi ls hls with ⟨h1, _⟩ | ⟨_, k, _, y, _, _, _, _, _, h1⟩
    · rw [h1, bind_ok]
      exact fin none _ _ rfl (by simp [Quiet]) rfl
    · rw [h1, bind_ok]
      cases hop : x.ops with
      | none => rw [hop] at ho; cases ho
      | some b =>
        cases b with
        | false => exact fin (some k) (-ENOENT) [.free m] (by simp only [rxDeliver, hop]) (by simp [Quiet]) rfl
        | true => exact fin (some k) 0 [.signCb k m] (by simp only [rxDeliver, hop]) (by simp [Quiet]) rfl
  | trau cb mx =>
    obtain ⟨d', evs, h1, h2⟩ := demuxIn_ok (hto.dmx cb mx hu) m.data
    simp only [h1, bind_ok]
    refine ⟨_, _, _, rfl, Tr.ts st op r { (st.ts r) with u := .trau cb mx, dmx := d' } _ hr ?_ ?_ ?_ hc hs (calm_of ?_) (.inl fun x => x)⟩
    · have := hto.sign; have := hto.pend; have := hto.mux
      rw [hu] at *
      exact ⟨hto.line, by simp, by assumption, by assumption, by assumption, fun _ _ _ => h2⟩
    · rw [hu]
    · rw [he]
      rw [hu, disposed_append]
      have : disposed (evs.map (Act.trauCb r cb)) = [] := by
        apply filterMap_nil_of
        intro a ha
        simp only [List.mem_map] at ha
        obtain ⟨e, _, rfl⟩ := ha
        rfl
      rw [this]; exact List.Perm.refl _
    · intro a ha
      rcases List.mem_append.1 ha with ha | ha
      · simp only [List.mem_map] at ha
        obtain ⟨e, _, rfl⟩ := ha
        trivial
      · simp only [List.mem_singleton] at ha; subst ha; trivial
  | raw cb q =>
    exact ⟨_, _, _, rfl, Tr.pure st op st.drivers _ (by rw [he]; exact List.Perm.refl _) hc hs (calm_of (by simp [Quiet]))⟩
  | hdlc cb q =>
    exact ⟨_, _, _, rfl, Tr.pure st op st.drivers _ (by rw [he]; exact List.Perm.refl _) hc hs (calm_of (by simp [Quiet]))⟩
  | i460 n =>
    exact ⟨_, _, _, rfl, Tr.pure st op st.drivers _ (by rw [he]; exact List.Perm.refl _) hc hs (calm_of (by simp [Quiet]))⟩
  | none =>
    exact ⟨_, _, _, rfl, Tr.pure st op st.drivers _ (by rw [he]; exact List.Perm.refl _) hc hs (calm_of (by simp [Quiet]))⟩
  | stale u => exact absurd hu (hto.notStale u)

/-- events never fault on signalling timeslots -/
theorem event_ok {st : St} (h : Inv st) {r : TsRef} (hr : At st r) (hty : HasType st r .sign)
    (evt : Nat) (tei sapi : Byte) :
    ∃ rc acts, event st r evt tei sapi = .ok (rc, acts) ∧ (∀ a ∈ acts, Quiet a) ∧ disposed acts = [] := by
  have hto := h.ts r hr
  obtain ⟨ls, d, hu⟩ := sign_of_type hty hto.notStale
  have hls : ∀ k ∈ ls, ∃ x, st.link k = some x := by
    intro k hk
    obtain ⟨y, y1, _⟩ := h.ls r hr k (by rw [hu]; exact hk)
    exact ⟨y, y1⟩
  unfold event
  rw [tsAt_ok hr, bind_ok]
  simp only [lookup, hu]
  rcases lookupIn_spec st tei sapi ls hls with ⟨h1, _⟩ | ⟨_, k, _, y, _, hk, _, _, _, h1⟩
  · rw [h1, bind_ok]; exact ⟨_, _, rfl, by simp, rfl⟩
  · rw [h1, bind_ok]
    simp only [linkAt_ok hk, bind_ok, hto.line]
    exact ⟨_, _, rfl, by simp [Quiet], rfl⟩

end Verif.E1
