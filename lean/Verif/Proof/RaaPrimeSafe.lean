import Verif.Proof.RaaPrime
/-! Proof infrastructure: decoder safety on arbitrary input and zero-run bounds of the encoder. -/
namespace Verif.RaaPrime
set_option linter.unusedSimpArgs false

theorem zspPos_ok (a : List Bool) : ∀ (n off p : Nat), off + n ≤ a.length →
    ∃ r, zspPos a off p n = .ok r
  | 0, _, p, _ => ⟨p, rfl⟩
  | n + 1, off, p, h => by
    rw [zspPos, rd_ok (by omega)]
    exact zspPos_ok a n (off + 1) _ (by omega)

theorem decodeZsp_ok (a : List Bool) (o : Nat) (h : o + 8 ≤ a.length) :
    decodeZsp a o = .ok none ∨ ∃ z, z ≤ 28 ∧ decodeZsp a o = .ok (some z) := by
  rw [decodeZsp, rd_ok (by omega), rd_ok (i := o + 7) (by omega)]
  simp only [bind_ok]
  obtain ⟨r, hr⟩ := zspPos_ok a 5 (o + 2) 0 (by omega)
  rw [hr]
  simp only [bind_ok]
  by_cases h0 : a[o] <;> by_cases h7 : a[o + 7] <;>
    simp only [h0, h7, Bool.not_true, Bool.not_false, Bool.false_eq_true, if_true, if_false, true_or]
  by_cases hp : r < 1 ∨ r > 29
  · left; rw [if_pos hp]
  · right; refine ⟨r - 1, by omega, ?_⟩; rw [if_neg hp]

theorem decodeLoop_safe (a : List Bool) (o base : Nat) (ha : o + 36 ≤ a.length) :
    ∀ (fuel pos : Nat) (w : List (Option Bool)) (r : Nat), base + pos = w.length → 36 - pos ≤ r →
      37 ≤ pos + 8 * fuel → 1 ≤ fuel →
      decodeLoop (w ++ List.replicate r none) base a o pos fuel = .ok none ∨
      ∃ x : List Bool, x.length = 36 - pos ∧
        decodeLoop (w ++ List.replicate r none) base a o pos fuel
          = .ok (some ((w ++ x.map some) ++ List.replicate (r - (36 - pos)) none)) := by
  intro fuel
  induction fuel with
  | zero => intro pos w r _ _ _ h; omega
  | succ fuel ih =>
    intro pos w r hw hr hf _
    rw [decodeLoop]
    by_cases hp : pos > 28
    · left; rw [if_pos hp]
    · rw [if_neg hp]
      rcases decodeZsp_ok a (o + pos) (by omega) with h | ⟨z, hz, h⟩
      · left; rw [h]; rfl
      · rw [h, rd_ok (i := o + pos + 1) (by omega)]
        simp only [bind_ok]
        by_cases hlt : z < pos
        · left; rw [if_pos hlt]
        · rw [if_neg hlt, slice_ok (by omega)]
          simp only [bind_ok]
          have hl : ((a.drop (o + 8 + pos)).take (z - pos)).length = z - pos := by
            simp only [List.length_take, List.length_drop]; omega
          generalize (a.drop (o + 8 + pos)).take (z - pos) = s at hl
          rw [blit_at _ _ _ _ _ hw (by simp only [List.length_map, hl]; omega)]
          simp only [bind_ok, List.length_map, hl]
          rw [blit_at _ _ _ _ _ (by simp only [List.length_append, List.length_map, hl]; omega)
            (by simp; omega)]
          simp only [bind_ok, List.length_replicate]
          have e8 : pos + (z - pos + 8) = z + 8 := by omega
          rw [e8]
          by_cases hc : a[o + pos + 1]
          · right
            simp only [hc, if_true, cassert]
            rw [if_pos (by simp; omega), slice_ok (by omega)]
            simp only [bind_ok]
            have hl2 : ((a.drop (o + (z + 8))).take (36 - (z + 8))).length = 36 - (z + 8) := by
              simp only [List.length_take, List.length_drop]; omega
            generalize (a.drop (o + (z + 8))).take (36 - (z + 8)) = t at hl2
            rw [blit_at _ _ _ _ _
              (by simp only [List.length_append, List.length_map, hl, List.length_replicate]; omega)
              (by simp only [List.length_map, hl2]; omega)]
            refine ⟨s ++ List.replicate 8 false ++ t, by simp [hl, hl2]; omega, ?_⟩
            have hcnt : r - (z - pos) - 8 - (36 - (z + 8)) = r - (36 - pos) := by omega
            simp only [bind_ok, List.map_append, List.map_replicate, List.append_assoc,
              List.length_map, hl2, hcnt]
          · simp only [hc, Bool.false_eq_true, if_false]
            rcases ih (z + 8)
                (w ++ List.map some s ++ List.replicate 8 (some false)) (r - (z - pos) - 8)
                (by simp only [List.length_append, List.length_map, hl, List.length_replicate]; omega)
                (by omega) (by omega) (by omega) with h | ⟨x, hx, h⟩
            · left; exact h
            · right
              refine ⟨s ++ List.replicate 8 false ++ x, by simp [hl, hx]; omega, ?_⟩
              have hcnt : r - (z - pos) - 8 - (36 - (z + 8)) = r - (36 - pos) := by omega
              rw [h]
              simp only [bind_ok, List.map_append, List.map_replicate, List.append_assoc, hcnt]

theorem decodeSubframe_safe (a : List Bool) (o base : Nat) (ha : o + 37 ≤ a.length)
    (w : List (Option Bool)) (r : Nat) (hw : base = w.length) (hr : 36 ≤ r) :
    decodeSubframe (w ++ List.replicate r none) base a o = .ok none ∨
    ∃ x : List Bool, x.length = 36 ∧
      decodeSubframe (w ++ List.replicate r none) base a o
        = .ok (some ((w ++ x.map some) ++ List.replicate (r - 36) none)) := by
  rw [decodeSubframe, rd_ok (by omega)]
  simp only [bind_ok]
  by_cases hz : a[o]
  · right
    simp only [hz, if_true]
    rw [slice_ok (by omega)]
    have hl : ((a.drop (o + 1)).take 36).length = 36 := by
      simp only [List.length_take, List.length_drop]; omega
    refine ⟨(a.drop (o + 1)).take 36, hl, ?_⟩
    simp only [bind_ok]
    rw [blit_at _ _ _ _ _ hw (by simp only [List.length_map, hl]; omega)]
    simp only [bind_ok, List.length_map, hl]
  · simp only [hz, Bool.false_eq_true, if_false]
    have := decodeLoop_safe a (o + 1) base (by omega) 6 0 w r (by omega) (by omega) (by omega)
      (by omega)
    simpa using this

theorem decodeSubframes_safe (a : List Bool) : ∀ (n o base : Nat), o + 37 * n ≤ a.length →
    ∀ (w : List (Option Bool)) (r : Nat), base = w.length → 36 * n ≤ r →
    decodeSubframes (w ++ List.replicate r none) base a o n = .ok none ∨
    ∃ x : List Bool, x.length = 36 * n ∧
      decodeSubframes (w ++ List.replicate r none) base a o n
        = .ok (some ((w ++ x.map some) ++ List.replicate (r - 36 * n) none)) := by
  intro n
  induction n with
  | zero => intros; right; exact ⟨[], rfl, by simp [decodeSubframes]⟩
  | succ n ih =>
    intro o base ha w r hw hr
    rw [decodeSubframes]
    rcases decodeSubframe_safe a o base (by omega) w r hw (by omega) with h | ⟨x, hx, h⟩
    · left; rw [h]; rfl
    · rw [h]
      simp only [bind_ok]
      rcases ih (o + 37) (base + 36) (by omega) (w ++ x.map some) (r - 36)
        (by simp [hx, hw]) (by omega) with h | ⟨y, hy, h⟩
      · left; exact h
      · right
        refine ⟨x ++ y, by simp [hx, hy]; omega, ?_⟩
        rw [h]
        simp only [List.map_append, List.append_assoc]
        congr 5
        congr 1
        omega

/-! ### zero runs -/

/-- length of the zero run at the end of `c` zeros followed by `l` -/
def runEnd (c : Nat) (l : List Bool) : Nat := l.foldl (fun c b => if b then 0 else c + 1) c

/-- no zero run in (`c` zeros followed by) `l` exceeds `k` (counting only runs visible in `l`) -/
def runsLe (k : Nat) : Nat → List Bool → Prop
  | _, [] => True
  | c, b :: l => (if b then 0 else c + 1) ≤ k ∧ runsLe k (if b then 0 else c + 1) l

theorem runEnd_append (c : Nat) (a b : List Bool) :
    runEnd c (a ++ b) = runEnd (runEnd c a) b := by simp [runEnd, List.foldl_append]

theorem runsLe_append (k : Nat) : ∀ (a b : List Bool) (c : Nat),
    runsLe k c (a ++ b) ↔ runsLe k c a ∧ runsLe k (runEnd c a) b
  | [], b, c => by simp [runsLe, runEnd]
  | x :: a, b, c => by
    simp only [List.cons_append, runsLe, runsLe_append k a b, runEnd, List.foldl_cons, and_assoc]

theorem runEnd_le {k : Nat} : ∀ (a : List Bool) (c : Nat), c ≤ k → runsLe k c a → runEnd c a ≤ k
  | [], c, h, _ => h
  | x :: a, c, _, h => by
    rw [runEnd, List.foldl_cons]; exact runEnd_le a _ h.1 h.2

/-- If `s` has no block of `k+1` zeros, then all its runs (starting with `c` zeros that are
preceded by the given context `pre`) are at most `k`. -/
theorem runsLe_of_no_block (k : Nat) : ∀ (s pre : List Bool) (c : Nat),
    (∃ p, pre = p ++ List.replicate c false) → c ≤ k →
    (∀ u v, pre ++ s ≠ u ++ List.replicate (k + 1) false ++ v) → runsLe k c s
  | [], _, _, _, _, _ => trivial
  | true :: s, pre, c, _, _, hn => by
    refine ⟨by simp, ?_⟩
    simp only [if_true]
    refine runsLe_of_no_block k s (pre ++ [true]) 0 ⟨pre ++ [true], by simp⟩ (by omega) ?_
    intro u v h
    exact hn u v (by rw [← h]; simp)
  | false :: s, pre, c, ⟨p, hp⟩, hc, hn => by
    have hlt : c + 1 ≤ k := by
      rcases Nat.lt_or_ge c k with h | h
      · omega
      · exfalso
        have : c = k := by omega
        subst this
        refine hn p s ?_
        rw [hp, List.replicate_succ']; simp
    refine ⟨by simpa using hlt, ?_⟩
    simp only [Bool.false_eq_true, if_false]
    refine runsLe_of_no_block k s (pre ++ [false]) (c + 1) ⟨p, ?_⟩ hlt ?_
    · rw [hp, List.replicate_succ']; simp
    · intro u v h
      exact hn u v (by rw [← h]; simp)

/-- segment of `d` between `p` and `q` without Z position has only runs ≤ 7 -/
theorem seg_runs (d : List Bool) (p n : Nat) (hl : p + n ≤ d.length)
    (h : ∀ i, p ≤ i → i + 8 ≤ p + n → isZ d i = false) :
    runsLe 7 0 ((d.drop p).take n) := by
  refine runsLe_of_no_block 7 _ [] 0 ⟨[], rfl⟩ (by omega) ?_
  intro u v e
  simp only [List.nil_append] at e
  have hlen : ((d.drop p).take n).length = n := by simp; omega
  have hul : u.length + 8 ≤ n := by
    have := congrArg List.length e
    rw [hlen] at this
    simp at this
    omega
  have hz := h (p + u.length) (by omega) (by omega)
  have hd : d.drop p = u ++ List.replicate 8 false ++ (v ++ (d.drop p).drop n) := by
    conv => lhs; rw [← List.take_append_drop n (d.drop p), e]
    simp
  have : isZ d (p + u.length) = true := by
    unfold isZ
    rw [← List.drop_drop, hd, List.append_assoc, List.drop_left,
      List.take_append_of_le_length (by simp), List.take_of_length_le (by simp)]
    decide
  rw [this] at hz
  cases hz

theorem runsLe_mono {k k' : Nat} (h : k ≤ k') : ∀ (l : List Bool) (c : Nat), runsLe k c l → runsLe k' c l
  | [], _, _ => trivial
  | _ :: l, _, ⟨h1, h2⟩ => ⟨Nat.le_trans h1 h, runsLe_mono h l _ h2⟩

theorem zsp_runs (z : Nat) (f : Bool) (c : Nat) : runsLe 7 c (zsp z f) ∧ runEnd c (zsp z f) = 0 := by
  simp only [zsp]
  generalize ((((z + 1) % 256) >>> 4) % 2 == 1) = b4
  generalize ((((z + 1) % 256) >>> 3) % 2 == 1) = b3
  generalize ((((z + 1) % 256) >>> 2) % 2 == 1) = b2
  generalize ((((z + 1) % 256) >>> 1) % 2 == 1) = b1
  generalize ((((z + 1) % 256) >>> 0) % 2 == 1) = b0
  constructor
  · cases f <;> cases b4 <;> cases b3 <;> cases b2 <;> cases b1 <;> cases b0 <;>
      simp [runsLe]
  · simp [runEnd]

theorem seg_end (d : List Bool) (p z : Nat) (hl : z + 8 ≤ d.length)
    (hz : isZ d z = true) (h4 : ∀ i, p ≤ i → i < z → isZ d i = false) :
    runEnd 0 ((d.drop p).take (z - p)) = 0 := by
  by_cases hpz : z ≤ p
  · have : z - p = 0 := by omega
    simp [this, runEnd]
  · have hd1 : d.drop (z - 1) = d[z - 1] :: d.drop z := by
      have := List.drop_eq_getElem_cons (l := d) (i := z - 1) (by omega)
      rw [this]; congr 2; omega
    have hb : d[z - 1] = true := by
      have h := h4 (z - 1) (by omega) (by omega)
      unfold isZ at h hz
      rw [hd1] at h
      have hz7 : ((d.drop z).take 7).all (fun b => !b) = true := by
        rw [List.all_eq_true] at hz ⊢
        intro x hx
        exact hz x ((List.take_subset_take_left _ (by omega)) hx)
      simp only [List.take_succ_cons, List.all_cons, hz7, Bool.and_true] at h
      simpa using h
    have e : (d.drop p).take (z - p) = (d.drop p).take (z - 1 - p) ++ [true] := by
      rw [show z - p = (z - 1 - p) + 1 by omega, List.take_add_one, List.getElem?_drop,
        show p + (z - 1 - p) = z - 1 by omega, List.getElem?_eq_getElem (by omega), hb]
      rfl
    rw [e, runEnd_append]
    simp [runEnd]

theorem segs_runs (d : List Bool) (hd : d.length = 36) : ∀ (zs : List Nat) (p c : Nat),
    Valid d p zs → (zs = [] → c = 0) →
    runsLe 7 c (segs d p zs) ∧ runEnd c (segs d p zs) ≤ 7
  | [], p, c, hv, hc => by
    have hc := hc rfl
    subst hc
    have h1 : runsLe 7 0 (segs d p []) := by
      have := seg_runs d p (36 - p) (by have := hv.1; omega)
        (fun i h1 h2 => hv.2 i h1 (by have := hv.1; omega))
      rw [List.take_of_length_le (by simp [hd])] at this
      exact this
    exact ⟨h1, runEnd_le _ _ (by omega) h1⟩
  | z :: zs, p, c, hv, _ => by
    obtain ⟨h1, h2, h3, h4, h5⟩ := hv
    obtain ⟨hz1, hz2⟩ := zsp_runs z zs.isEmpty c
    have hseg : runsLe 7 0 ((d.drop p).take (z - p)) :=
      seg_runs d p (z - p) (by omega) (fun i hi1 hi2 => h4 i hi1 (by omega))
    obtain ⟨r1, r2⟩ := segs_runs d hd zs (z + 8) 0 h5 (by simp)
    simp only [segs, runsLe_append, runEnd_append, hz2, seg_end d p z (by omega) h3 h4]
    exact ⟨⟨⟨hz1, hseg⟩, r1⟩, r2⟩

theorem encSub_runs (d : List Bool) (hd : d.length = 36) (c : Nat) (hc : c ≤ 7) :
    runsLe 8 c (encSub d) ∧ runEnd c (encSub d) ≤ 7 := by
  have hv := zpos_valid0 d
  unfold encSub
  by_cases hz : zpos d 0 = []
  · rw [if_pos hz]
    rw [hz] at hv
    obtain ⟨r1, r2⟩ := segs_runs d hd [] 0 0 hv (fun _ => rfl)
    simp only [segs, List.drop_zero] at r1 r2
    refine ⟨⟨by simp, ?_⟩, ?_⟩
    · exact runsLe_mono (by omega) _ _ r1
    · simpa [runEnd] using r2
  · rw [if_neg hz]
    obtain ⟨r1, r2⟩ := segs_runs d hd _ 0 (c + 1) hv (fun h => absurd h hz)
    refine ⟨⟨by simpa using hc, ?_⟩, ?_⟩
    · exact runsLe_mono (by omega) _ _ r1
    · simpa [runEnd] using r2

theorem encSubs_runs (d : List Bool) : ∀ (n base c : Nat), base + 36 * n ≤ d.length → c ≤ 7 →
    runsLe 8 c (encSubs d base n) ∧ runEnd c (encSubs d base n) ≤ 7
  | 0, _, c, _, hc => ⟨trivial, by simpa [encSubs, runEnd] using hc⟩
  | n + 1, base, c, h, hc => by
    obtain ⟨r1, r2⟩ := encSub_runs (sub d base) (sub_length d base (by omega)) c hc
    obtain ⟨s1, s2⟩ := encSubs_runs d n (base + 36) _ (by omega) r2
    rw [encSubs, runsLe_append, runEnd_append]
    exact ⟨⟨r1, s1⟩, s2⟩

/-- a run of at least `j` zeros ending right before position `i` of `l` shows up in `runEnd` -/
theorem runEnd_take_ge (l : List Bool) : ∀ (j i c : Nat), j ≤ i → i ≤ l.length →
    (∀ k, i - j ≤ k → k < i → l[k]? = some false) → j ≤ runEnd c (l.take i)
  | 0, _, _, _, _, _ => Nat.zero_le _
  | j + 1, i, c, hj, hi, h => by
    obtain ⟨i, rfl⟩ : ∃ i', i = i' + 1 := ⟨i - 1, by omega⟩
    have hb := h i (by omega) (by omega)
    rw [List.take_add_one, hb, runEnd_append]
    have := runEnd_take_ge l j i c (by omega) (by omega) (fun k h1 h2 => h k (by omega) (by omega))
    simp [runEnd] at this ⊢
    omega

/-- bounded runs everywhere: value at any prefix -/
theorem runsLe_prefix {k : Nat} : ∀ (l : List Bool) (c i : Nat), runsLe k c l → 1 ≤ i →
    i ≤ l.length → runEnd c (l.take i) ≤ k
  | [], _, i, _, h1, h2 => by simp at h2; omega
  | b :: l, c, i, h, h1, h2 => by
    obtain ⟨i, rfl⟩ : ∃ i', i = i' + 1 := ⟨i - 1, by omega⟩
    rw [List.take_succ_cons, runEnd, List.foldl_cons]
    by_cases hi : i = 0
    · subst hi; simpa using h.1
    · exact runsLe_prefix l _ i h.2 (by omega) (by simp at h2; omega)

/-- within a frame that follows at most 7 zeros, a position whose preceding run is at least 16 and
which holds a one is bit 16 -/
theorem frame_sync (m0 m1 : Bool) (d : List Bool) (c4 c5 : Bool) (hd : d.length = 288) (c : Nat)
    (i : Nat) (hi : i < 320)
    (h1 : (encFrame m0 m1 d c4 c5)[i]? = some true)
    (hr : 16 ≤ runEnd c ((encFrame m0 m1 d c4 c5).take i)) : i = 16 := by
  have hsplit : encFrame m0 m1 d c4 c5
      = (List.replicate 16 false ++ [true]) ++ ([false, true, true, c4, c5, m0, m1] ++ encSubs d 0 8) := by
    simp [encFrame, hdr]
  have hend : runEnd 0 [false, true, true, c4, c5, m0, m1] ≤ 4 := by
    cases c4 <;> cases c5 <;> cases m0 <;> cases m1 <;> decide
  have hrr : runsLe 8 0 ([false, true, true, c4, c5, m0, m1] ++ encSubs d 0 8) := by
    rw [runsLe_append]
    refine ⟨?_, (encSubs_runs d 8 0 _ (by omega) (by omega)).1⟩
    cases c4 <;> cases c5 <;> cases m0 <;> cases m1 <;> simp [runsLe]
  rw [hsplit] at h1 hr
  by_cases hlt : i < 16
  · rw [List.append_assoc, List.getElem?_append_left (by simpa using hlt)] at h1
    rw [List.getElem?_replicate_of_lt hlt] at h1
    cases h1
  · by_cases h16 : i = 16
    · exact h16
    · exfalso
      have hlen : (List.replicate 16 false ++ [true]).length = 17 := by simp
      rw [List.take_append, List.take_of_length_le (by rw [hlen]; omega), hlen, runEnd_append] at hr
      have e0 : runEnd c (List.replicate 16 false ++ [true]) = 0 := by
        rw [runEnd_append]; simp [runEnd]
      rw [e0] at hr
      by_cases h17 : i = 17
      · subst h17; simp [runEnd] at hr
      · have := runsLe_prefix _ 0 (i - 17) hrr (by omega)
          (by simp [encSubs_length d 8 0 (by omega)]; omega)
        omega

theorem frame_end (m0 m1 : Bool) (d : List Bool) (c4 c5 : Bool) (hd : d.length = 288) (c : Nat) :
    runEnd c (encFrame m0 m1 d c4 c5) ≤ 7 := by
  have hend : runEnd 0 [false, true, true, c4, c5, m0, m1] ≤ 4 := by
    cases c4 <;> cases c5 <;> cases m0 <;> cases m1 <;> decide
  rw [show encFrame m0 m1 d c4 c5
      = (List.replicate 16 false ++ [true]) ++ ([false, true, true, c4, c5, m0, m1] ++ encSubs d 0 8) by
    simp [encFrame, hdr], runEnd_append, runEnd_append]
  have e0 : runEnd c (List.replicate 16 false ++ [true]) = 0 := by
    rw [runEnd_append]; simp [runEnd]
  rw [e0]
  exact (encSubs_runs d 8 0 _ (by omega) (by omega)).2

end Verif.RaaPrime
