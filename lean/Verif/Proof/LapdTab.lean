import Verif.Proof.Lapd
/-!
# The TEI and SAP tables: effect of the operations on look-ups, and the table invariant
-/
namespace Verif.Lapd

/-- the TEI is registered -/
def Known (li : Li) (t : Byte) : Prop := ∃ e ∈ li.teis, e.tei = t

theorem known_iff (li : Li) (t : Byte) : Known li t ↔ (teipFromTei li t).isSome := by
  simp [Known, teipFromTei]

theorem known_none {li : Li} {t : Byte} : teipFromTei li t = none ↔ ¬ Known li t := by
  rw [known_iff]; cases teipFromTei li t <;> simp

theorem teip_tei {li : Li} {t : Byte} {e : Tei} (h : teipFromTei li t = some e) :
    e.tei = t ∧ e ∈ li.teis := by
  have h1 := List.find?_some h
  have h2 := List.mem_of_find?_eq_some h
  exact ⟨by simpa using h1, h2⟩

theorem find_updTei (l : List Tei) (t t' : Byte) (f : Tei → Tei) (hf : ∀ e, (f e).tei = e.tei) :
    (updTei l t f).find? (fun e => e.tei == t')
      = if t' = t then (l.find? (fun e => e.tei == t)).map f else l.find? (fun e => e.tei == t') := by
  induction l with
  | nil => simp [updTei]
  | cons a l ih =>
    unfold updTei
    by_cases ha : a.tei = t
    · have hab : (a.tei == t) = true := by simp [ha]
      rw [if_pos hab]
      by_cases ht : t' = t
      · rw [if_pos ht, List.find?_cons_of_pos (by simp [hf, ha, ht]), List.find?_cons_of_pos (p := fun e : Tei => e.tei == t) hab]
        rfl
      · rw [if_neg ht, List.find?_cons_of_neg (by simp [hf, ha]; exact fun h => ht h.symm),
          List.find?_cons_of_neg (by simp [ha]; exact fun h => ht h.symm)]
    · have hab : ¬ (a.tei == t) = true := by simp [ha]
      rw [if_neg hab, List.find?_cons_of_neg (p := fun e : Tei => e.tei == t) hab]
      by_cases ht : t' = t
      · rw [List.find?_cons_of_neg (by simp [ht, ha]), ih, if_pos ht, if_pos ht]
      · rw [if_neg ht]
        rw [if_neg ht] at ih
        by_cases ha' : a.tei = t'
        · rw [List.find?_cons_of_pos (by simp [ha']), List.find?_cons_of_pos (by simp [ha'])]
        · rw [List.find?_cons_of_neg (by simp [ha']), List.find?_cons_of_neg (by simp [ha']), ih]

theorem updTei_map (l : List Tei) (t : Byte) (f : Tei → Tei) (hf : ∀ e, (f e).tei = e.tei) :
    (updTei l t f).map (·.tei) = l.map (·.tei) := by
  induction l with
  | nil => rfl
  | cons a l ih =>
    unfold updTei
    by_cases ha : (a.tei == t) = true
    · rw [if_pos ha]; simp [hf]
    · rw [if_neg ha]; simp [ih]

/-- `lapd_sap_alloc`: what is found afterwards -/
theorem sapAlloc_ok (li : Li) (hk : li.profile.k.length = 64) (t s : Byte) :
    ∃ p, sapAlloc li t s = .ok ({ li with nextId := li.nextId + 1, teis := updTei li.teis t (fun e => { e with saps := p :: e.saps }) }, p)
      ∧ p.id = li.nextId ∧ p.sapi = s ∧ p.lctxTei = t ∧ p.lctxSapi = s ∧ p.maxf = li.profile.n201
      ∧ p.n200 = li.profile.n200 ∧ p.network = li.networkSide
      ∧ li.profile.k[(s &&& 0x3f).toNat]? = some p.k := by
  have hlt : (s &&& 0x3f).toNat < li.profile.k.length := by
    rw [hk]
    exact (by decide +kernel : ∀ s : Byte, (s &&& 0x3f).toNat < 64) s
  unfold sapAlloc newSap
  rw [rd_ok hlt]
  refine ⟨_, rfl, rfl, rfl, rfl, rfl, rfl, rfl, rfl, ?_⟩
  simp [List.getElem?_eq_getElem hlt]

/-- the effect of adding a SAP to a known TEI on all look-ups -/
theorem lookup_addSap (li : Li) (n : Nat) (t : Byte) (p : Sap) (hk : Known li t) (t' s' : Byte) :
    lookup { li with nextId := n, teis := updTei li.teis t (fun e => { e with saps := p :: e.saps }) } t' s'
      = if t' = t ∧ s' = p.sapi then some p else lookup li t' s' := by
  unfold lookup teipFromTei
  simp only
  rw [find_updTei _ _ _ _ (by intro e; rfl)]
  rw [known_iff] at hk
  unfold teipFromTei at hk
  by_cases ht : t' = t
  · subst ht
    rw [if_pos rfl]
    cases he : List.find? (fun e => e.tei == t') li.teis with
    | none => rw [he] at hk; cases hk
    | some e =>
      simp only [Option.map_some, sapFind]
      by_cases hs : s' = p.sapi
      · rw [List.find?_cons_of_pos (by simp [hs])]; simp [hs]
      · rw [List.find?_cons_of_neg (by simp; exact fun h => hs h.symm)]; simp [hs]
  · rw [if_neg ht]; simp [ht]

theorem lookup_teiAlloc (li : Li) (t : Byte) (hk : ¬ Known li t) (t' s' : Byte) :
    lookup (teiAlloc li t) t' s' = lookup li t' s' := by
  unfold lookup teipFromTei teiAlloc
  simp only
  by_cases ht : t = t'
  · rw [List.find?_cons_of_pos (by simp [ht])]
    rw [← known_none] at hk
    unfold teipFromTei at hk
    rw [← ht, hk]
    rfl
  · rw [List.find?_cons_of_neg (by simp [ht])]

theorem known_teiAlloc (li : Li) (t t' : Byte) : Known (teiAlloc li t) t' ↔ Known li t' ∨ t' = t := by
  simp only [Known, teiAlloc, List.mem_cons]
  constructor
  · rintro ⟨e, rfl | he, h⟩
    · exact Or.inr h.symm
    · exact Or.inl ⟨e, he, h⟩
  · rintro (⟨e, he, h⟩ | h)
    · exact ⟨e, Or.inr he, h⟩
    · exact ⟨_, Or.inl rfl, h.symm⟩

theorem known_of_map {li li' : Li} (h : li'.teis.map (·.tei) = li.teis.map (·.tei)) (t : Byte) :
    Known li' t ↔ Known li t := by
  have : ∀ l : Li, Known l t ↔ t ∈ l.teis.map (·.tei) := by
    intro l; simp [Known]
  rw [this, this, h]

theorem lookup_none_of_unknown {li : Li} {t : Byte} (h : ¬ Known li t) (s : Byte) :
    lookup li t s = none := by
  unfold lookup
  rw [known_none.2 h]

theorem lookup_of_teip {li : Li} {t : Byte} {e : Tei} (h : teipFromTei li t = some e) (s : Byte) :
    lookup li t s = sapFind e s := by
  unfold lookup; rw [h]

/-- Table invariant -/
structure Inv (li : Li) : Prop where
  /-- no TEI is registered twice -/
  teis : (li.teis.map (·.tei)).Nodup
  /-- no SAPI exists twice on a TEI -/
  saps : ∀ t ∈ li.teis, (t.saps.map (·.sapi)).Nodup
  /-- no object is in two lists -/
  ids : (li.teis.flatMap fun t => t.saps.map (·.id)).Nodup
  fresh : ∀ t ∈ li.teis, ∀ s ∈ t.saps, s.id < li.nextId
  /-- the context of each data link has its own address -/
  own : ∀ t ∈ li.teis, ∀ s ∈ t.saps, s.lctxTei = t.tei ∧ s.lctxSapi = s.sapi
  k : li.profile.k.length = 64

theorem inv_alloc2 (n : Bool) (a b c d : Ptr) (p : Profile) (hp : p.k.length = 64) :
    Inv (instanceAlloc2 n a b c d p) := by
  constructor <;> simp [instanceAlloc2, hp]

theorem inv_teiAlloc {li : Li} (h : Inv li) (t : Byte) (hk : ¬ Known li t) :
    Inv (teiAlloc li t) := by
  obtain ⟨h1, h2, h3, h4, h5, h6⟩ := h
  have hn : t ∉ li.teis.map (·.tei) := by
    simpa [Known] using hk
  constructor
  · simpa [teiAlloc] using ⟨by simpa using hn, h1⟩
  · intro e he
    simp only [teiAlloc, List.mem_cons] at he
    rcases he with rfl | he
    · simp
    · exact h2 e he
  · simpa [teiAlloc] using h3
  · intro e he
    simp only [teiAlloc, List.mem_cons] at he
    rcases he with rfl | he
    · simp
    · exact h4 e he
  · intro e he
    simp only [teiAlloc, List.mem_cons] at he
    rcases he with rfl | he
    · simp
    · exact h5 e he
  · exact h6

theorem mem_updTei {l : List Tei} {t : Byte} {f : Tei → Tei} {e : Tei} (h : e ∈ updTei l t f) :
    e ∈ l ∨ ∃ e', l.find? (fun x => x.tei == t) = some e' ∧ e = f e' := by
  induction l with
  | nil => cases h
  | cons a l ih =>
    unfold updTei at h
    by_cases ha : (a.tei == t) = true
    · rw [if_pos ha] at h
      rcases List.mem_cons.1 h with h | h
      · exact Or.inr ⟨a, List.find?_cons_of_pos (p := fun e : Tei => e.tei == t) ha, h⟩
      · exact Or.inl (List.mem_cons_of_mem _ h)
    · rw [if_neg ha] at h
      rcases List.mem_cons.1 h with h | h
      · exact Or.inl (h ▸ List.mem_cons_self ..)
      · rcases ih h with h | ⟨e', h, h'⟩
        · exact Or.inl (List.mem_cons_of_mem _ h)
        · exact Or.inr ⟨e', by rw [List.find?_cons_of_neg (p := fun e : Tei => e.tei == t) ha]; exact h, h'⟩

theorem mem_flatMap_updTei {l : List Tei} {t : Byte} {p : Sap} {i : Nat}
    (h : i ∈ (updTei l t (fun e => { e with saps := p :: e.saps })).flatMap
      (fun t => t.saps.map (·.id))) :
    i = p.id ∨ i ∈ l.flatMap (fun t => t.saps.map (·.id)) := by
  simp only [List.mem_flatMap, List.mem_map] at h ⊢
  obtain ⟨e, he, s, hs, hi⟩ := h
  rcases mem_updTei he with he | ⟨e', he', rfl⟩
  · exact Or.inr ⟨e, he, s, hs, hi⟩
  · rcases List.mem_cons.1 hs with rfl | hs
    · exact Or.inl hi.symm
    · exact Or.inr ⟨e', List.mem_of_find?_eq_some he', s, hs, hi⟩

theorem nodup_updTei {l : List Tei} {t : Byte} {p : Sap}
    (h : (l.flatMap (fun t => t.saps.map (·.id))).Nodup)
    (hp : p.id ∉ l.flatMap (fun t => t.saps.map (·.id))) :
    ((updTei l t (fun e => { e with saps := p :: e.saps })).flatMap
      (fun t => t.saps.map (·.id))).Nodup := by
  induction l with
  | nil => simp [updTei]
  | cons a l ih =>
    rw [List.flatMap_cons, List.nodup_append] at h
    rw [List.flatMap_cons, List.mem_append] at hp
    unfold updTei
    by_cases ha : (a.tei == t) = true
    · rw [if_pos ha, List.flatMap_cons]
      simp only [List.map_cons, List.cons_append]
      refine List.nodup_cons.2 ⟨?_, ?_⟩
      · rw [List.mem_append]; exact hp
      · exact List.nodup_append.2 h
    · rw [if_neg ha, List.flatMap_cons, List.nodup_append]
      refine ⟨h.1, ih h.2.1 (fun hh => hp (Or.inr hh)), ?_⟩
      intro x hx y hy
      rcases mem_flatMap_updTei hy with rfl | hy
      · intro hxy; exact hp (Or.inl (hxy ▸ hx))
      · exact h.2.2 x hx y hy

theorem inv_addSap {li : Li} (h : Inv li) (t : Byte) (p : Sap)
    (hno : lookup li t p.sapi = none) (hid : p.id = li.nextId) (ht : p.lctxTei = t)
    (hs : p.lctxSapi = p.sapi) :
    Inv { li with nextId := li.nextId + 1, teis := updTei li.teis t (fun e => { e with saps := p :: e.saps }) } := by
  obtain ⟨h1, h2, h3, h4, h5, h6⟩ := h
  constructor
  · simp only
    rw [updTei_map _ _ _ (by intro e; rfl)]
    exact h1
  · intro e he
    rcases mem_updTei he with he | ⟨e', he', rfl⟩
    · exact h2 e he
    · simp only [List.map_cons]
      refine List.nodup_cons.2 ⟨?_, h2 e' (List.mem_of_find?_eq_some he')⟩
      have : lookup li t p.sapi = sapFind e' p.sapi := lookup_of_teip he' _
      rw [hno] at this
      have := List.find?_eq_none.1 this.symm
      intro hm
      obtain ⟨x, hx, hxe⟩ := List.mem_map.1 hm
      exact absurd (by simp [hxe] : (x.sapi == p.sapi) = true) (this x hx)
  · refine nodup_updTei h3 ?_
    intro hm
    simp only [List.mem_flatMap, List.mem_map] at hm
    obtain ⟨e, he, s, hs', hi⟩ := hm
    have := h4 e he s hs'
    omega
  · intro e he s hs'
    simp only
    rcases mem_updTei he with he | ⟨e', he', rfl⟩
    · have := h4 e he s hs'; omega
    · rcases List.mem_cons.1 hs' with rfl | hs'
      · omega
      · have := h4 e' (List.mem_of_find?_eq_some he') s hs'; omega
  · intro e he s hs'
    rcases mem_updTei he with he | ⟨e', he', rfl⟩
    · exact h5 e he s hs'
    · rcases List.mem_cons.1 hs' with rfl | hs'
      · refine ⟨?_, hs⟩
        rw [ht]
        have := List.find?_some he'
        exact (by simpa using this : e'.tei = t).symm
      · exact h5 e' (List.mem_of_find?_eq_some he') s hs'
  · exact h6

theorem flatMap_sublist {α β : Type} {f g : α → List β} {l : List α} (h : ∀ a, (f a).Sublist (g a)) :
    (l.flatMap f).Sublist (l.flatMap g) := by
  induction l with
  | nil => simp
  | cons a l ih => rw [List.flatMap_cons, List.flatMap_cons]; exact (h a).append ih

theorem inv_sapFree {li : Li} (h : Inv li) (i : Nat) : Inv (sapFree li i) := by
  obtain ⟨h1, h2, h3, h4, h5, h6⟩ := h
  constructor
  · simpa [sapFree, List.map_map, Function.comp_def] using h1
  · intro e he
    simp only [sapFree, List.mem_map] at he
    obtain ⟨e', he', rfl⟩ := he
    exact (h2 e' he').sublist (List.filter_sublist.map _)
  · refine h3.sublist ?_
    simp only [sapFree, List.flatMap_map]
    exact flatMap_sublist (fun e => List.filter_sublist.map _)
  · intro e he s hs
    simp only [sapFree, List.mem_map] at he
    obtain ⟨e', he', rfl⟩ := he
    exact h4 e' he' s (List.mem_filter.1 hs).1
  · intro e he s hs
    simp only [sapFree, List.mem_map] at he
    obtain ⟨e', he', rfl⟩ := he
    exact h5 e' he' s (List.mem_filter.1 hs).1
  · exact h6

theorem teip_sapFree (li : Li) (i : Nat) (t : Byte) :
    teipFromTei (sapFree li i) t
      = (teipFromTei li t).map fun e => { e with saps := e.saps.filter fun s => s.id != i } := by
  unfold teipFromTei sapFree
  simp only [List.find?_map, Function.comp_def]

/-- what remains after a SAP is freed -/
theorem lookup_sapFree {li : Li} (h : Inv li) (i : Nat) (t s : Byte) :
    lookup (sapFree li i) t s = (lookup li t s).filter fun p => p.id != i := by
  unfold lookup
  rw [teip_sapFree]
  cases he : teipFromTei li t with
  | none => rfl
  | some e =>
    have hn := h.saps e (teip_tei he).2
    simp only [Option.map_some, sapFind]
    generalize e.saps = l at hn
    clear he
    induction l with
    | nil => rfl
    | cons a l ih =>
      rw [List.map_cons, List.nodup_cons] at hn
      by_cases ha : a.sapi = s
      · have hs : (a.sapi == s) = true := by simp [ha]
        rw [List.find?_cons_of_pos (p := fun e : Sap => e.sapi == s) hs]
        by_cases hi : (a.id != i) = true
        · rw [List.filter_cons_of_pos (p := fun e : Sap => e.id != i) hi, List.find?_cons_of_pos (p := fun e : Sap => e.sapi == s) hs]
          simp [Option.filter, hi]
        · rw [List.filter_cons_of_neg (p := fun e : Sap => e.id != i) hi]
          simp only [Option.filter, hi]
          rw [if_neg (by simp)]
          refine List.find?_eq_none.2 ?_
          intro x hx hxs
          refine hn.1 (List.mem_map.2 ⟨x, (List.mem_filter.1 hx).1, ?_⟩)
          rw [ha]; simpa using hxs
      · have hs : ¬ (a.sapi == s) = true := by simp [ha]
        rw [List.find?_cons_of_neg (p := fun e : Sap => e.sapi == s) hs]
        by_cases hi : (a.id != i) = true
        · rw [List.filter_cons_of_pos (p := fun e : Sap => e.id != i) hi, List.find?_cons_of_neg (p := fun e : Sap => e.sapi == s) hs, ih hn.2]
        · rw [List.filter_cons_of_neg (p := fun e : Sap => e.id != i) hi, ih hn.2]

end Verif.Lapd
