import Verif.Props.Lapd
/-!
# Properties C49, C51, C52, C81-C83: LAPD, for all histories of an instance
-/
namespace Verif.Lapd
open Verif.Spec.Lapd

/-- the data link exists -/
def Live (li : Li) (id : Nat) : Prop := ∃ t ∈ li.teis, ∃ s ∈ t.saps, s.id = id

/-- What the environment may do: the application registers a TEI itself (`lapd_tei_alloc`) only if it
is not registered, profiles have a complete window table, and the data link state machine of
libosmocore only acts for data links that exist, with room for the header in its messages.  Received
frames, starts, stops and transmit requests are unrestricted. -/
def Admissible (li : Li) : Op → Prop
  | .teiAlloc t => ¬ Known li t
  | .setProfile p => p.k.length = 64
  | .coreTx l _ h => Live li l.dl ∧ 4 ≤ h
  | .coreInd l _ _ => Live li l.dl
  | _ => True

/-- every event of the history is admissible when it happens -/
def AdmRun (li : Li) : List Op → Prop
  | [] => True
  | op :: ops => Admissible li op ∧ ∀ li' acts, step li op = .ok (li', acts) → AdmRun li' ops

/-- the SAPs freed by a list of actions -/
def freedOf (acts : List Act) : List Nat :=
  acts.filterMap fun a => match a with | .sapFree i => some i | _ => none

def liveIds (li : Li) : List Nat := li.teis.flatMap fun t => t.saps.map (·.id)

theorem live_iff (li : Li) (i : Nat) : Live li i ↔ i ∈ liveIds li := by
  simp [Live, liveIds]

theorem sapById_live {li : Li} {i : Nat} (h : Live li i) : (sapById li i).isSome := by
  obtain ⟨t, ht, s, hs, hi⟩ := h
  unfold sapById
  rw [List.find?_isSome]
  refine ⟨(t, s), ?_, by simp [hi]⟩
  simp only [List.mem_flatMap, List.mem_map]
  exact ⟨t, ht, s, hs, rfl⟩

/-- book-keeping of a history: table invariant, and every SAP ever allocated is either live or has
been freed, once -/
structure J (li : Li) (fr : List Nat) : Prop where
  inv : Inv li
  nodup : fr.Nodup
  freed : ∀ i ∈ fr, i < li.nextId ∧ i ∉ liveIds li
  all : ∀ i, i < li.nextId → i ∈ fr ∨ i ∈ liveIds li

theorem J_eff {li li' : Li} {fr : List Nat} (h : J li fr) (e : Eff li li') : J li' fr := by
  have hi := eff_inv h.inv e
  cases e with
  | same => exact h
  | tei t hk =>
    refine ⟨hi, h.nodup, ?_, ?_⟩
    · simpa [liveIds, teiAlloc] using h.freed
    · simpa [liveIds, teiAlloc] using h.all
  | sap t p hk hn hid ht hs _ =>
    refine ⟨hi, h.nodup, ?_, ?_⟩
    · intro i hm
      have := h.freed i hm
      refine ⟨by simp only; omega, ?_⟩
      intro hm'
      rcases mem_flatMap_updTei hm' with rfl | hm'
      · omega
      · exact this.2 hm'
    · intro i hlt
      simp only at hlt
      have hsub : ∀ i, i = p.id ∨ i ∈ liveIds li → i ∈ liveIds { li with nextId := li.nextId + 1, teis := updTei li.teis t (fun e => { e with saps := p :: e.saps }) } := by
        intro i hm
        unfold liveIds at hm ⊢
        simp only
        have : ∀ l : List Tei, (∃ e ∈ l, e.tei = t) → (i = p.id ∨ i ∈ l.flatMap fun t => t.saps.map (·.id)) →
            i ∈ (updTei l t (fun e => { e with saps := p :: e.saps })).flatMap fun t => t.saps.map (·.id) := by
          intro l
          induction l with
          | nil => rintro ⟨e, he, -⟩; cases he
          | cons a l ih =>
            intro hx hm
            unfold updTei
            rw [List.flatMap_cons, List.mem_append] at hm
            by_cases ha : (a.tei == t) = true
            · rw [if_pos ha, List.flatMap_cons, List.mem_append]
              simp only [List.map_cons, List.mem_cons]
              rcases hm with h | h | h
              · exact Or.inl (Or.inl h)
              · exact Or.inl (Or.inr h)
              · exact Or.inr h
            · rw [if_neg ha, List.flatMap_cons, List.mem_append]
              have hx' : ∃ e ∈ l, e.tei = t := by
                obtain ⟨e, he, hte⟩ := hx
                rcases List.mem_cons.1 he with rfl | he
                · simp [hte] at ha
                · exact ⟨e, he, hte⟩
              rcases hm with h | h | h
              · exact Or.inr (ih hx' (Or.inl h))
              · exact Or.inl h
              · exact Or.inr (ih hx' (Or.inr h))
        exact this li.teis hk hm
      by_cases hieq : i = p.id
      · exact Or.inr (hsub i (Or.inl hieq))
      · rcases h.all i (by omega) with h' | h'
        · exact Or.inl h'
        · exact Or.inr (hsub i (Or.inr h'))

theorem mem_liveIds_sapFree (li : Li) (j i : Nat) :
    i ∈ liveIds (sapFree li j) ↔ i ∈ liveIds li ∧ i ≠ j := by
  simp only [liveIds, sapFree, List.mem_flatMap, List.mem_map, List.mem_filter]
  constructor
  · rintro ⟨t, ⟨t', ht', rfl⟩, s, hs, rfl⟩
    obtain ⟨hs, hne⟩ := List.mem_filter.1 hs
    exact ⟨⟨t', ht', s, hs, rfl⟩, by simpa using hne⟩
  · rintro ⟨⟨t, ht, s, hs, rfl⟩, hne⟩
    exact ⟨_, ⟨t, ht, rfl⟩, s, List.mem_filter.2 ⟨hs, by simpa using hne⟩, rfl⟩

theorem J_free {li : Li} {fr : List Nat} (h : J li fr) {j : Nat} (hl : Live li j) :
    J (sapFree li j) (fr ++ [j]) := by
  rw [live_iff] at hl
  have hj : j ∉ fr := fun hm => (h.freed j hm).2 hl
  have hlt : j < li.nextId := by
    simp only [liveIds, List.mem_flatMap, List.mem_map] at hl
    obtain ⟨t, ht, s, hs, rfl⟩ := hl
    exact h.inv.fresh t ht s hs
  refine ⟨inv_sapFree h.inv j, ?_, ?_, ?_⟩
  · rw [List.nodup_append]
    exact ⟨h.nodup, by simp, by intro a ha b hb; simp at hb; subst hb; intro he; exact hj (he ▸ ha)⟩
  · intro i hi
    rcases List.mem_append.1 hi with hi | hi
    · exact ⟨(h.freed i hi).1, fun hm => (h.freed i hi).2 ((mem_liveIds_sapFree li j i).1 hm).1⟩
    · simp at hi
      subst hi
      exact ⟨hlt, fun hm => ((mem_liveIds_sapFree li i i).1 hm).2 rfl⟩
  · intro i hi
    rcases h.all i hi with h' | h'
    · exact Or.inl (List.mem_append.2 (Or.inl h'))
    · by_cases hij : i = j
      · exact Or.inl (List.mem_append.2 (Or.inr (by simp [hij])))
      · exact Or.inr ((mem_liveIds_sapFree li j i).2 ⟨h', hij⟩)

theorem receive_eff (li : Li) (hk : li.profile.k.length = 64) (d : List Byte) (rc : Int) :
    ∃ r, receive li d rc = .ok r ∧ Eff li r.li ∧ freedOf r.acts = [] := by
  rcases Classical.em (Complete d) with ⟨addr, ctrl, payload, rfl, ha, hc⟩ | h
  · obtain ⟨l, hp, -⟩ := parse_complete (payload := payload) ha hc
    rw [receive_some li hp (drop_hdr addr ctrl payload) rc]
    rcases receiveBody_cases li hk l payload rc with
      ⟨-, q, hq, e⟩ | ⟨-, -, e⟩ | ⟨-, -, li', p, he, -, -, ⟨-, e⟩ | ⟨-, e⟩⟩ <;> rw [e]
    · refine ⟨_, rfl, ?_⟩
      unfold teiReceive at hq
      by_cases h5 : payload.length < 5
      · rw [if_pos h5] at hq
        obtain rfl := Except.ok.inj hq
        exact ⟨.same, rfl⟩
      · rw [if_neg h5, rd_ok (by omega), rd_ok (by omega), bind_ok, bind_ok] at hq
        simp only at hq
        split at hq
        · obtain rfl := Except.ok.inj hq
          exact ⟨(ensureTei_eff li _).1, rfl⟩
        · obtain rfl := Except.ok.inj hq
          exact ⟨.same, rfl⟩
    · exact ⟨_, rfl, .same, rfl⟩
    · exact ⟨_, rfl, he, rfl⟩
    · exact ⟨_, rfl, he, rfl⟩
  · exact ⟨_, receive_incomplete li h rc, .same, rfl⟩

theorem sapStart_eff (li : Li) (hk : li.profile.k.length = 64) (t s : Byte) (rc : Int) :
    ∃ r li1, sapStart li t s rc = .ok r ∧ Eff li li1 ∧ Eff li1 r.1 ∧ freedOf r.2.2 = [] := by
  unfold sapStart
  cases he : teipFromTei li t with
  | none =>
    have hnk := known_none.1 he
    obtain ⟨p, hp, h1, h2, h3, h4, h5, -⟩ := sapAlloc_ok (teiAlloc li t) hk t s
    have hkn : Known (teiAlloc li t) t := (known_teiAlloc li t t).2 (Or.inr rfl)
    refine ⟨({ teiAlloc li t with nextId := (teiAlloc li t).nextId + 1, teis := updTei (teiAlloc li t).teis t (fun e => { e with saps := p :: e.saps }) }, rc,
        [.dlReq .est p.id []]), teiAlloc li t, ?_, .tei t hnk,
      .sap t p hkn ?_ h1 h3 (by rw [h4, h2]) h5, ?_⟩
    · simp only [sapStartOn, sapFind, List.find?_nil, hp, bind_ok]
    · rw [lookup_teiAlloc li t hnk]
      exact lookup_none_of_unknown hnk _
    · rfl
  | some e =>
    have hkn : Known li t := (known_iff _ _).2 (by rw [he]; rfl)
    simp only [sapStartOn]
    cases hs : sapFind e s with
    | some p => exact ⟨_, li, rfl, .same, .same, rfl⟩
    | none =>
      obtain ⟨p, hp, h1, h2, h3, h4, h5, -⟩ := sapAlloc_ok li hk t s
      simp only [hp, bind_ok]
      refine ⟨_, li, rfl, .same, .sap t p hkn ?_ h1 h3 (by rw [h4, h2]) h5, rfl⟩
      rw [h2, lookup_of_teip he, hs]

theorem sendFrame_ok (li : Li) (l : Lctx) (p : List Byte) (h : Nat) (hh : 4 ≤ h) :
    ∃ r, sendFrame li l p h = .ok r ∧ freedOf r.2 = [] := by
  unfold sendFrame
  have hc : ∀ c, ctrlField l = some c → c.length ≤ 2 := by
    intro c hc
    unfold ctrlField at hc
    cases hf : l.format <;> rw [hf] at hc <;> cases hc <;> simp
  have ha : (addrField li l).length ≤ 2 := by
    unfold addrField; split <;> simp
  cases e : ctrlField l with
  | none => exact ⟨_, rfl, rfl⟩
  | some c =>
    have := hc c e
    simp only [push, if_pos (show c.length ≤ h by omega), bind_ok]
    rw [if_pos (by omega)]
    exact ⟨_, rfl, rfl⟩

/-- one admissible step never faults and keeps the books -/
theorem J_step {li : Li} {fr : List Nat} (h : J li fr) (op : Op) (ha : Admissible li op) :
    ∃ li' acts, step li op = .ok (li', acts) ∧ J li' (fr ++ freedOf acts) := by
  cases op with
  | receive d rc =>
    obtain ⟨r, h1, h2, h3⟩ := receive_eff li h.inv.k d rc
    refine ⟨r.li, r.acts, ?_, by rw [h3, List.append_nil]; exact J_eff h h2⟩
    simp only [step, h1]; rfl
  | sapStart t s rc =>
    obtain ⟨r, li1, h1, h2, h3, h4⟩ := sapStart_eff li h.inv.k t s rc
    refine ⟨r.1, r.2.2, ?_, by rw [h4, List.append_nil]; exact J_eff (J_eff h h2) h3⟩
    simp only [step, h1]; rfl
  | sapStop t s rc =>
    refine ⟨_, _, rfl, ?_⟩
    have : freedOf (sapStop li t s rc).2 = [] := by
      unfold sapStop; split <;> rfl
    rw [this, List.append_nil]; exact h
  | transmit t s m =>
    refine ⟨_, _, rfl, ?_⟩
    have : freedOf (transmit li t s m) = [] := by
      unfold transmit; split <;> rfl
    rw [this, List.append_nil]; exact h
  | teiAlloc t =>
    exact ⟨_, _, rfl, by simpa [freedOf] using J_eff h (.tei t ha)⟩
  | setProfile p =>
    refine ⟨_, _, rfl, ?_⟩
    obtain ⟨⟨i1, i2, i3, i4, i5, i6⟩, j2, j3, j4⟩ := h
    simp only [freedOf, List.filterMap_nil, List.append_nil]
    exact ⟨⟨i1, i2, i3, i4, i5, ha⟩, j2, j3, j4⟩
  | coreTx l p hd =>
    obtain ⟨hl, h4⟩ := ha
    have hs := sapById_live hl
    obtain ⟨r, hr, hf⟩ := sendFrame_ok li l p hd h4
    refine ⟨li, r.2, ?_, by rw [hf, List.append_nil]; exact h⟩
    simp only [step, sendPhDataReq]
    cases e : sapById li l.dl with
    | none => rw [e] at hs; cases hs
    | some _ => simp only [hr]; rfl
  | coreInd l prim p =>
    have hs := sapById_live ha
    simp only [step, sendDlsap]
    cases e : sapById li l.dl with
    | none => rw [e] at hs; cases hs
    | some _ =>
      simp only
      by_cases hp : prim = .rel
      · subst hp
        exact ⟨_, _, rfl, J_free h ha⟩
      · rw [if_neg (by simpa using hp)]
        refine ⟨_, _, rfl, ?_⟩
        simp only [freedOf, List.filterMap_cons, List.filterMap_nil, List.append_nil]
        exact h

theorem J_run {li : Li} {fr : List Nat} (h : J li fr) (ops : List Op) (ha : AdmRun li ops) :
    ∃ li' acts, run li ops = .ok (li', acts) ∧ J li' (fr ++ freedOf acts) := by
  induction ops generalizing li fr with
  | nil => exact ⟨li, [], rfl, by simpa [freedOf] using h⟩
  | cons op ops ih =>
    obtain ⟨h1, h2⟩ := ha
    obtain ⟨li1, a1, e1, j1⟩ := J_step h op h1
    obtain ⟨li2, a2, e2, j2⟩ := ih j1 (h2 _ _ e1)
    refine ⟨li2, a1 ++ a2, ?_, ?_⟩
    · unfold run
      rw [e1, bind_ok]
      simp only [e2, bind_ok]
    · rw [List.append_assoc] at j2
      simpa [freedOf, List.filterMap_append] using j2

theorem J_init (n : Bool) (a b c d : Ptr) (p : Profile) (hp : p.k.length = 64) :
    J (instanceAlloc2 n a b c d p) [] :=
  ⟨inv_alloc2 n a b c d p hp, by simp, by simp, by simp [instanceAlloc2]⟩

/-- all (TEI, SAPI) pairs for which a SAP exists -/
def saps (li : Li) : List (Byte × Byte) := li.teis.flatMap fun t => t.saps.map fun s => (t.tei, s.sapi)

theorem saps_nodup {li : Li} (h : Inv li) : (saps li).Nodup := by
  have : ∀ l : List Tei, (l.map (·.tei)).Nodup → (∀ t ∈ l, (t.saps.map (·.sapi)).Nodup) →
      (l.flatMap fun t => t.saps.map fun s => (t.tei, s.sapi)).Nodup := by
    intro l
    induction l with
    | nil => intro _ _; simp
    | cons a l ih =>
      intro h1 h2
      rw [List.map_cons, List.nodup_cons] at h1
      rw [List.flatMap_cons, List.nodup_append]
      refine ⟨?_, ih h1.2 (fun t ht => h2 t (List.mem_cons_of_mem _ ht)), ?_⟩
      · have := h2 a (List.mem_cons_self ..)
        rw [List.Nodup, List.pairwise_map] at this ⊢
        exact this.imp (fun hne he => hne (Prod.mk.inj he).2)
      · intro x hx y hy he
        subst he
        simp only [List.mem_map, List.mem_flatMap] at hx hy
        obtain ⟨s, -, rfl⟩ := hx
        obtain ⟨t, ht, s', -, he⟩ := hy
        exact h1.1 (List.mem_map.2 ⟨t, ht, (Prod.mk.inj he).1⟩)
  exact this li.teis h.teis h.saps

/-- C49, C51, C52 for all histories: whatever is received, started, stopped and sent, in any order
and with any behaviour of the data links, no operation faults (no access outside a frame, no use of a
freed SAP), no TEI is registered twice and there is at most one SAP for each TEI and SAPI. -/
theorem C52_history (n : Bool) (a b c d : Ptr) (p : Profile) (hp : p.k.length = 64) (ops : List Op)
    (ha : AdmRun (instanceAlloc2 n a b c d p) ops) :
    ∃ li acts, run (instanceAlloc2 n a b c d p) ops = .ok (li, acts)
      ∧ (li.teis.map (·.tei)).Nodup ∧ (saps li).Nodup := by
  obtain ⟨li, acts, h, j⟩ := J_run (J_init n a b c d p hp) ops ha
  exact ⟨li, acts, h, j.inv.teis, saps_nodup j.inv⟩

/-- C51: the restriction on `lapd_tei_alloc` in `Admissible` is necessary: called for a registered
TEI this public function registers it a second time. -/
theorem C51_tei_alloc_duplicates (li : Li) (t : Byte) (h : Known li t) :
    ¬ ((teiAlloc li t).teis.map (·.tei)).Nodup := by
  obtain ⟨e, he, rfl⟩ := h
  simp only [teiAlloc, List.map_cons, List.nodup_cons, List.mem_map, not_and]
  intro h
  exact absurd ⟨e, he, rfl⟩ h

/-- C82: every SAP ever allocated is freed exactly once: by its release, or else by
`lapd_instance_free` at the end of the history (`nextId` counts the allocations). -/
theorem C82_freed_exactly_once (n : Bool) (a b c d : Ptr) (p : Profile) (hp : p.k.length = 64)
    (ops : List Op) (ha : AdmRun (instanceAlloc2 n a b c d p) ops) :
    ∃ li acts, run (instanceAlloc2 n a b c d p) ops = .ok (li, acts)
      ∧ ∀ i, (freedOf (acts ++ instanceFree li)).count i = if i < li.nextId then 1 else 0 := by
  obtain ⟨li, acts, h, j⟩ := J_run (J_init n a b c d p hp) ops ha
  refine ⟨li, acts, h, ?_⟩
  rw [List.nil_append] at j
  have hf : freedOf (instanceFree li) = liveIds li := by
    unfold freedOf instanceFree liveIds
    rw [List.filterMap_flatMap]
    congr 1
    funext t
    unfold teiFree
    rw [List.filterMap_map]
    induction t.saps with
    | nil => rfl
    | cons x xs ih => rw [List.filterMap_cons]; simp only [Function.comp]; rw [List.map_cons]; exact congrArg _ ih
  have hnd : (freedOf acts ++ liveIds li).Nodup := by
    rw [List.nodup_append]
    refine ⟨j.nodup, j.inv.ids, ?_⟩
    intro x hx y hy he
    subst he
    exact (j.freed x hx).2 hy
  intro i
  rw [show freedOf (acts ++ instanceFree li) = freedOf acts ++ liveIds li by
    rw [← hf]; simp [freedOf, List.filterMap_append]]
  by_cases hm : i ∈ freedOf acts ++ liveIds li
  · rw [hnd.count, if_pos hm, if_pos]
    rcases List.mem_append.1 hm with hm | hm
    · exact (j.freed i hm).1
    · simp only [liveIds, List.mem_flatMap, List.mem_map] at hm
      obtain ⟨t, ht, s, hs, rfl⟩ := hm
      exact j.inv.fresh t ht s hs
  · rw [List.count_eq_zero.2 hm, if_neg]
    intro hlt
    exact hm (List.mem_append.2 (j.all i hlt))

/-- an admissible history with a release and a new start of the same SAP -/
def exHist : List Op :=
  [.receive (identityRequest 1 2 5) 0, .sapStart 5 62 0,
   .coreTx { Lctx.zero with dl := 0, tei := 5, sapi := 62, format := .u, s_u := 15, p_f := 1 } [] 56,
   .receive [0xf8, 0x0b, 0x73] 0, .transmit 5 62 [1, 2, 3], .sapStop 5 62 0,
   .coreInd { Lctx.zero with dl := 0, tei := 5, sapi := 62 } .rel [],
   .sapStart 5 62 0, .receive [0xfe, 0xff] 0]

/-- decidable form of `AdmRun` for examples -/
def admRunB (li : Li) : List Op → Bool
  | [] => true
  | op :: ops =>
    (match op with
      | .teiAlloc t => (teipFromTei li t).isNone
      | .setProfile p => p.k.length == 64
      | .coreTx l _ h => (liveIds li).contains l.dl && Nat.ble 4 h
      | .coreInd l _ _ => (liveIds li).contains l.dl
      | _ => true) &&
    (match step li op with
      | .ok r => admRunB r.1 ops
      | .error _ => true)

theorem admRunB_ok {li : Li} {ops : List Op} (h : admRunB li ops = true) : AdmRun li ops := by
  induction ops generalizing li with
  | nil => trivial
  | cons op ops ih =>
    unfold admRunB at h
    rw [Bool.and_eq_true] at h
    refine ⟨?_, ?_⟩
    · cases op with
      | teiAlloc t => exact known_none.1 (by simpa using h.1)
      | setProfile p => simpa [Admissible] using h.1
      | coreTx l p hd =>
        have := h.1
        rw [Bool.and_eq_true] at this
        exact ⟨(live_iff _ _).2 (by simpa using this.1), by simpa using this.2⟩
      | coreInd l p hd => exact (live_iff _ _).2 (by simpa using h.1)
      | _ => trivial
    · intro li' acts hs
      have := h.2
      rw [hs] at this
      exact ih this

example : AdmRun (instanceAlloc2 true 1 2 3 4 profileAbis) exHist := admRunB_ok (by decide +kernel)

example : (match run (instanceAlloc2 true 1 2 3 4 profileAbis) exHist with
    | .ok r => r.1.nextId == 2 && freedOf r.2 == [0] && freedOf (instanceFree r.1) == [1]
    | .error _ => false) = true := by decide +kernel

/-! ## C81 `e1inp_rx_ts_lapd` -/

/-- C81 is false: the wrapper reads the address octets before the length is checked, beyond the end
of an empty frame and of a one octet frame with the extension bit clear -/
theorem C81_violated (li : Li) (rc : Int) :
    rxTsLapd li [] rc = .error .oob ∧
    ∀ a : Byte, a.toNat % 2 = 0 → rxTsLapd li [a] rc = .error .oob := by
  refine ⟨rfl, ?_⟩
  intro a ha
  have : ((a &&& 1) != 0) = false := by
    have := (by decide +kernel : ∀ a : Byte, ((a &&& 1) != 0) = (a.toNat % 2 == 1)) a
    rw [this, ha]; rfl
  have h0 : rxTei [a] a = .error .oob := by
    unfold rxTei
    rw [this]
    rfl
  show (rxTei [a] a >>= fun tei => rxTsTail li [a] rc tei (a >>> 2)) = _
  rw [h0]
  rfl

/-- C81 (partial): for frames of two or more octets the wrapper does not fault, and it raises the
`TEI_UNKNOWN` event exactly when the frame is for an unregistered TEI, with the TEI and SAPI of the
frame's address; the return code is `-EIO` then and 0 otherwise.  Missing: shorter frames. -/
theorem C81_event_partial (li : Li) (hk : li.profile.k.length = 64) (d : List Byte)
    (hd : 2 ≤ d.length) (rc : Int) :
    ∃ r, rxTsLapd li d rc = .ok r ∧
      ((∃ addr ctrl payload, d = addr ++ ctrl ++ payload ∧ IsAddr addr ∧ IsCtrl ctrl
          ∧ teiOf addr ≠ 127 ∧ ¬ Known li (teiOf addr)
          ∧ r.2.1 = -EIO ∧ r.2.2.2 = [(teiOf addr, sapiOf addr)]) ∨
       ((∀ addr ctrl payload, d = addr ++ ctrl ++ payload → IsAddr addr → IsCtrl ctrl →
            teiOf addr = 127 ∨ Known li (teiOf addr))
          ∧ r.2.1 = 0 ∧ r.2.2.2 = [])) := by
  match d, hd with
  | a :: b :: rest, _ =>
    -- the addresses as computed by the wrapper
    have hw : ∃ tei : Byte, rxTsLapd li (a :: b :: rest) rc
          = rxTsTail li (a :: b :: rest) rc tei (a >>> 2)
        ∧ tei = if a.toNat % 2 = 1 then 0 else oct (b.toNat / 2) := by
      have he := (by decide +kernel : ∀ a : Byte, ((a &&& 1) != 0) = (a.toNat % 2 == 1)) a
      have hx : rxTsLapd li (a :: b :: rest) rc
          = (rxTei (a :: b :: rest) a >>= fun tei => rxTsTail li (a :: b :: rest) rc tei (a >>> 2)) := rfl
      rw [hx]
      by_cases h : a.toNat % 2 = 1
      · refine ⟨0, ?_, by rw [if_pos h]⟩
        unfold rxTei
        rw [he, if_pos (by simp [h]), bind_ok]
      · refine ⟨b >>> 1, ?_, by rw [if_neg h]; exact teiv_fact b⟩
        have hb : rxTei (a :: b :: rest) a = .ok (b >>> 1) := by
          unfold rxTei
          rw [he, if_neg (by simp [h])]
          rfl
        rw [hb, bind_ok]
    obtain ⟨tei, hw, htei⟩ := hw
    rw [hw]
    unfold rxTsTail
    rcases Classical.em (Complete (a :: b :: rest)) with ⟨addr, ctrl, payload, hd, ha, hc⟩ | hn
    · have uniq : ∀ addr' ctrl' payload', a :: b :: rest = addr' ++ ctrl' ++ payload' → IsAddr addr' →
          IsCtrl ctrl' → teiOf addr' = teiOf addr := by
        intro addr' ctrl' payload' hd' ha' hc'
        rw [hd] at hd'
        cases ha with
        | short h =>
          cases ha' with
          | short h' => rfl
          | long h' =>
            simp only [List.cons_append, List.nil_append, List.cons.injEq] at hd'
            rw [hd'.1] at h; omega
        | long h =>
          cases ha' with
          | short h' =>
            simp only [List.cons_append, List.nil_append, List.cons.injEq] at hd'
            rw [hd'.1] at h; omega
          | long h' =>
            simp only [List.cons_append, List.nil_append, List.cons.injEq] at hd'
            rw [teiOf, teiOf, hd'.2.1]
      have haddr : sapiOf addr = a >>> 2 ∧ teiOf addr = tei := by
        cases ha with
        | @short x h =>
          simp only [List.cons_append, List.nil_append, List.cons.injEq] at hd
          rw [hd.1] at htei ⊢
          rw [if_pos h] at htei
          exact ⟨(sapi_fact x).symm, htei.symm⟩
        | @long x y h =>
          simp only [List.cons_append, List.nil_append, List.cons.injEq] at hd
          rw [hd.1, hd.2.1] at htei
          rw [hd.1]
          rw [if_neg (by omega)] at htei
          exact ⟨(sapi_fact x).symm, htei.symm⟩
      by_cases hun : teiOf addr ≠ 127 ∧ ¬ Known li (teiOf addr)
      · have := C79_unknown_tei li hk (payload := payload) ha hc rc hun.1 hun.2
        rw [hd, this]
        refine ⟨_, rfl, Or.inl ⟨addr, ctrl, payload, rfl, ha, hc, hun.1, hun.2, rfl, ?_⟩⟩
        rw [haddr.1, haddr.2]
      · have hok : teiOf addr = 127 ∨ Known li (teiOf addr) := by
          rcases Classical.em (teiOf addr = 127) with h | h
          · exact Or.inl h
          · rcases Classical.em (Known li (teiOf addr)) with h' | h'
            · exact Or.inr h'
            · exact absurd ⟨h, h'⟩ hun
        obtain ⟨l, hp, h1, h2⟩ := parse_complete (payload := payload) ha hc
        have hrec := receive_some li hp (drop_hdr addr ctrl payload) rc
        rw [← hd] at hrec
        have hne : ∃ r, receive li (a :: b :: rest) rc = .ok r ∧ r.error ≠ some .unknownTei := by
          rcases receiveBody_cases li hk l payload rc with
            ⟨-, q, hq, e⟩ | ⟨x1, x2, e⟩ | ⟨-, -, li', p, he, -, -, ⟨-, e⟩ | ⟨-, e⟩⟩ <;>
            rw [e, bind_ok] at hrec
          · exact ⟨_, hrec, by simp⟩
          · rw [h1] at x1 x2
            exact absurd ⟨x1, x2⟩ hun
          · exact ⟨_, hrec, by simp⟩
          · exact ⟨_, hrec, by simp⟩
        obtain ⟨r, hr, hre⟩ := hne
        rw [hr, bind_ok]
        have : (r.rc < 0 && r.error == some .unknownTei) = false := by simp [hre]
        simp only [this]
        refine ⟨_, rfl, Or.inr ⟨?_, rfl, rfl⟩⟩
        intro addr' ctrl' payload' e1 e2 e3
        rw [uniq addr' ctrl' payload' e1 e2 e3]
        exact hok
    · rw [receive_incomplete li hn rc, bind_ok]
      refine ⟨_, rfl, Or.inr ⟨?_, rfl, rfl⟩⟩
      intro addr ctrl payload e1 e2 e3
      exact absurd ⟨addr, ctrl, payload, e1, e2, e3⟩ hn

/-! ## C83 the pcap trace -/

def pcapIn (acts : List Act) : List (List Byte) :=
  acts.filterMap fun a => match a with | .pcap false f => some f | _ => none
def pcapOut (acts : List Act) : List (List Byte) :=
  acts.filterMap fun a => match a with | .pcap true f => some f | _ => none
def sent (acts : List Act) : List (List Byte) :=
  acts.filterMap fun a => match a with | .transmit _ _ f => some f | _ => none
def received (ops : List Op) : List (List Byte) :=
  ops.filterMap fun o => match o with | .receive f _ => some f | _ => none

theorem step_trace {li li' : Li} {op : Op} {acts : List Act} (h : step li op = .ok (li', acts)) :
    pcapIn acts = received [op] ∧ pcapOut acts = sent acts := by
  cases op with
  | receive d rc =>
    simp only [step] at h
    cases hr : receive li d rc with
    | error e => rw [hr] at h; cases h
    | ok r =>
      rw [hr] at h
      obtain ⟨-, rfl⟩ := Prod.mk.inj (Except.ok.inj h)
      unfold receive at hr
      cases hp : parseHeader d with
      | error e => rw [hp] at hr; cases hr
      | ok o =>
        rw [hp, bind_ok] at hr
        cases hq : receiveParsed li d rc o with
        | error e => rw [hq] at hr; cases hr
        | ok q =>
          rw [hq, bind_ok] at hr
          obtain rfl := Except.ok.inj hr
          have key : pcapIn q.acts = [] ∧ pcapOut q.acts = sent q.acts := by
            match o, hq with
            | none, hq => cases hq; exact ⟨rfl, rfl⟩
            | some (l, i), hq =>
              simp only [receiveParsed, receiveBody] at hq
              split at hq
              · cases ht : teiReceive li (d.drop i) with
                | error e => rw [ht] at hq; cases hq
                | ok t =>
                  rw [ht, bind_ok] at hq
                  obtain rfl := Except.ok.inj hq
                  have : pcapIn t.2.2 = [] ∧ pcapOut t.2.2 = sent t.2.2 := by
                    unfold teiReceive at ht
                    split at ht
                    · cases ht; exact ⟨rfl, rfl⟩
                    · cases h3 : rd (d.drop i) 3 with
                      | error e => rw [h3] at ht; cases ht
                      | ok x =>
                        cases h4 : rd (d.drop i) 4 with
                        | error e => rw [h3, h4] at ht; cases ht
                        | ok y =>
                          rw [h3, h4, bind_ok, bind_ok] at ht
                          simp only at ht
                          split at ht
                          · cases ht; exact ⟨rfl, rfl⟩
                          · cases ht; exact ⟨rfl, rfl⟩
                  simp only [pcapIn, pcapOut, sent, List.filterMap_append] at this ⊢
                  exact ⟨by rw [this.1]; rfl, by rw [this.2]; rfl⟩
              · unfold dispatch at hq
                split at hq
                · cases hq; exact ⟨rfl, rfl⟩
                · rename_i e _
                  cases hs : ensureSap li e l.tei l.sapi with
                  | error e => rw [hs] at hq; cases hq
                  | ok s =>
                    rw [hs, bind_ok] at hq
                    obtain rfl := Except.ok.inj hq
                    unfold deliver
                    simp only
                    split <;> exact ⟨rfl, rfl⟩
          simp only [pcapIn, pcapOut, sent, received, List.filterMap_cons, List.filterMap_nil] at key ⊢
          exact ⟨by rw [key.1], key.2⟩
  | sapStart t s rc =>
    simp only [step] at h
    have key : ∀ li t' r, sapStartOn li t' t s rc = .ok r → pcapIn r.2.2 = [] ∧ pcapOut r.2.2 = sent r.2.2 := by
      intro li t' r hr
      unfold sapStartOn at hr
      split at hr
      · cases hr; exact ⟨rfl, rfl⟩
      · cases ha : sapAlloc li t s with
        | error e => rw [ha] at hr; cases hr
        | ok x => rw [ha] at hr; cases hr; exact ⟨rfl, rfl⟩
    cases hr : sapStart li t s rc with
    | error e => rw [hr] at h; cases h
    | ok r =>
      rw [hr] at h
      obtain ⟨-, rfl⟩ := Prod.mk.inj (Except.ok.inj h)
      unfold sapStart at hr
      split at hr
      · exact key _ _ _ hr
      · exact key _ _ _ hr
  | sapStop t s rc =>
    obtain ⟨-, rfl⟩ := Prod.mk.inj (Except.ok.inj h)
    unfold sapStop
    split <;> exact ⟨rfl, rfl⟩
  | transmit t s m =>
    obtain ⟨-, rfl⟩ := Prod.mk.inj (Except.ok.inj h)
    unfold transmit
    split <;> exact ⟨rfl, rfl⟩
  | teiAlloc t => cases h; exact ⟨rfl, rfl⟩
  | setProfile p => cases h; exact ⟨rfl, rfl⟩
  | coreTx l p hd =>
    simp only [step, sendPhDataReq] at h
    split at h
    · cases h
    · unfold sendFrame at h
      split at h
      · cases h; exact ⟨rfl, rfl⟩
      · rename_i c _
        cases h1 : push hd c p with
        | error e => rw [h1] at h; cases h
        | ok m =>
          rw [h1, bind_ok] at h
          cases h2 : push m.1 (addrField li l) m.2 with
          | error e => rw [h2] at h; cases h
          | ok m' =>
            rw [h2, bind_ok] at h
            obtain ⟨-, rfl⟩ := Prod.mk.inj (Except.ok.inj h)
            exact ⟨rfl, rfl⟩
  | coreInd l prim p =>
    simp only [step, sendDlsap] at h
    split at h
    · cases h
    · split at h <;> (cases h; exact ⟨rfl, rfl⟩)

/-- C83: with a pcap file configured, for every history: the frames traced as input are exactly the
received frames and the frames traced as output exactly the transmitted ones, in order - including
TEI management frames and frames that are rejected. -/
theorem C83_trace (li : Li) (ops : List Op) (li' : Li) (acts : List Act)
    (h : run li ops = .ok (li', acts)) :
    pcapIn acts = received ops ∧ pcapOut acts = sent acts := by
  induction ops generalizing li acts with
  | nil => cases h; exact ⟨rfl, rfl⟩
  | cons op ops ih =>
    unfold run at h
    cases hs : step li op with
    | error e => rw [hs] at h; cases h
    | ok r =>
      rw [hs, bind_ok] at h
      cases hr : run r.1 ops with
      | error e => rw [hr] at h; cases h
      | ok q =>
        rw [hr, bind_ok] at h
        obtain ⟨rfl, rfl⟩ := Prod.mk.inj (Except.ok.inj h)
        have h1 := step_trace (li' := r.1) (acts := r.2) hs
        have h2 := ih r.1 q.2 hr
        simp only [pcapIn, pcapOut, sent, received, List.filterMap_append] at h1 h2 ⊢
        refine ⟨?_, by rw [h1.2, h2.2]⟩
        rw [h1.1, h2.1, ← List.filterMap_append]
        rfl

-- the example history has both received and sent frames
example : (match run (instanceAlloc2 true 1 2 3 4 profileAbis) exHist with
    | .ok r => decide ((received exHist).length = 3) && decide ((sent r.2).length = 2)
    | .error _ => false) = true := by decide +kernel

end Verif.Lapd
