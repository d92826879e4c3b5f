import Verif.RaaPrime
/-! Proof infrastructure for the RAA' model (no property statements here). -/
namespace Verif.RaaPrime
set_option linter.unusedSimpArgs false
set_option linter.unnecessarySimpa false

@[simp] theorem bind_ok {α β : Type} (a : α) (f : α → M β) :
    ((Except.ok a : M α) >>= f) = f a := rfl
@[simp] theorem bind_err {α β : Type} (e : Fault) (f : α → M β) :
    ((Except.error e : M α) >>= f) = .error e := rfl

/-- 8 zeros at `i` -/
def isZ (d : List Bool) (i : Nat) : Bool := ((d.drop i).take 8).all (fun b => !b)

theorem isZSeqFrom_eq (d : List Bool) : ∀ (n off : Nat), off + n ≤ d.length →
    isZSeqFrom d off n = .ok (((d.drop off).take n).all (fun b => !b)) := by
  intro n
  induction n with
  | zero => intro off _; simp [isZSeqFrom]
  | succ n ih =>
    intro off h
    have h1 : off < d.length := by omega
    rw [isZSeqFrom, rd_ok h1]
    have hd : d.drop off = d[off] :: d.drop (off + 1) := List.drop_eq_getElem_cons h1
    rw [hd]
    simp only [List.take_succ_cons, List.all_cons, bind_ok]
    cases hb : d[off] with
    | true => simp
    | false => simp [ih (off + 1) (by omega)]

/-- the 36 bits of the subframe at `base` -/
abbrev sub (d : List Bool) (base : Nat) : List Bool := (d.drop base).take 36

theorem isZSeq_eq (d : List Bool) (base idx : Nat) (hb : base + 36 ≤ d.length) (hi : idx ≤ 28) :
    isZSeq d (base + idx) = .ok (isZ (sub d base) idx) := by
  rw [isZSeq, isZSeqFrom_eq _ _ _ (by omega)]
  congr 2
  rw [sub, List.drop_take, List.drop_drop, List.take_take]
  congr 1
  omega

/-- pure version of `find_z_seqs` -/
def zpos (d : List Bool) (idx : Nat) : List Nat :=
  if idx ≤ 28 then
    if isZ d idx then idx :: zpos d (idx + 8) else zpos d (idx + 1)
  else []
termination_by 29 - idx

/-- `zs` is the list of non-overlapping 8-zero positions found greedily from `p` on. -/
def Valid (d : List Bool) : Nat → List Nat → Prop
  | p, [] => p ≤ 36 ∧ ∀ i, p ≤ i → i ≤ 28 → isZ d i = false
  | p, z :: zs => p ≤ z ∧ z ≤ 28 ∧ isZ d z = true ∧ (∀ i, p ≤ i → i < z → isZ d i = false) ∧
      Valid d (z + 8) zs

theorem Valid.le {d : List Bool} : ∀ {zs : List Nat} {p : Nat}, Valid d p zs → p ≤ 36
  | [], _, h => h.1
  | _ :: _, _, h => by have := h.1; have := h.2.1; omega

theorem Valid.count {d : List Bool} : ∀ {zs : List Nat} {p : Nat}, Valid d p zs →
    p + 8 * zs.length ≤ 36
  | [], _, h => by have := h.1; simpa using this
  | z :: zs, p, h => by
    have h1 := h.1
    have := Valid.count h.2.2.2.2
    simp only [List.length_cons]
    omega

theorem zpos_valid (d : List Bool) (idx : Nat) : ∀ p, p ≤ idx → idx ≤ 36 →
    (∀ i, p ≤ i → i < idx → isZ d i = false) → Valid d p (zpos d idx) := by
  fun_induction zpos d idx with
  | case1 idx hle hz ih =>
    intro p hp _ hn
    exact ⟨hp, hle, hz, hn, ih (idx + 8) (Nat.le_refl _) (by omega) (by intro i h1 h2; omega)⟩
  | case2 idx hle hz ih =>
    intro p hp _ hn
    refine ih p (by omega) (by omega) ?_
    intro i h1 h2
    by_cases h : i = idx
    · subst h; simpa using hz
    · exact hn i h1 (by omega)
  | case3 idx hle =>
    intro p hp h36 hn
    exact ⟨by omega, fun i h1 h2 => hn i h1 (by omega)⟩

theorem findZSeqs_eq (d : List Bool) (base : Nat) (hb : base + 36 ≤ d.length) (idx : Nat) :
    ∀ pos : List Nat, pos.length * 8 ≤ idx →
    findZSeqs d base idx pos = .ok (pos ++ zpos (sub d base) idx) := by
  fun_induction zpos (sub d base) idx with
  | case1 idx hle hz ih =>
    intro pos hp
    rw [findZSeqs, if_pos hle, isZSeq_eq d base idx hb hle, hz]
    simp only
    rw [if_pos (by unfold MAX_ZSEQ_CNT; omega), ih (pos ++ [idx]) (by simp; omega)]
    simp
  | case2 idx hle hz ih =>
    intro pos hp
    rw [findZSeqs, if_pos hle, isZSeq_eq d base idx hb hle]
    have hz' : isZ (sub d base) idx = false := by simpa using hz
    rw [hz']
    exact ih pos (by omega)
  | case3 idx hle =>
    intro pos _
    rw [findZSeqs, if_neg hle]; simp

/-- pure encoding of the part behind the Zi bit -/
def segs (d : List Bool) : Nat → List Nat → List Bool
  | p, [] => d.drop p
  | p, z :: zs => zsp z zs.isEmpty ++ (d.drop p).take (z - p) ++ segs d (z + 8) zs

/-- pure encoding of one subframe -/
def encSub (d : List Bool) : List Bool :=
  if zpos d 0 = [] then true :: d else false :: segs d 0 (zpos d 0)

theorem zsp_length (z : Nat) (f : Bool) : (zsp z f).length = 8 := rfl

theorem segs_length (d : List Bool) (hd : d.length = 36) : ∀ (zs : List Nat) (p : Nat),
    Valid d p zs → (segs d p zs).length = 36 - p
  | [], p, h => by simp [segs, hd]
  | z :: zs, p, h => by
    have h1 := h.1
    have h2 := h.2.1
    have h5 := h.2.2.2.2
    simp only [segs, List.length_append, zsp_length, List.length_take, List.length_drop,
      segs_length d hd zs (z + 8) h5, hd]
    omega

theorem zpos_valid0 (d : List Bool) : Valid d 0 (zpos d 0) :=
  zpos_valid d 0 0 (Nat.le_refl _) (by omega) (by intro i _ h; omega)

theorem encSub_length (d : List Bool) (hd : d.length = 36) : (encSub d).length = 37 := by
  unfold encSub
  split
  · simp [hd]
  · simp [segs_length d hd _ 0 (zpos_valid0 d)]

theorem sub_length (d : List Bool) (base : Nat) (hb : base + 36 ≤ d.length) :
    (sub d base).length = 36 := by simp [sub]; omega

theorem slice_sub (d : List Bool) (base p n : Nat) (hb : base + 36 ≤ d.length) (h : p + n ≤ 36) :
    slice d (base + p) n = .ok (((sub d base).drop p).take n) := by
  rw [slice_ok (by omega)]
  congr 1
  rw [sub, List.drop_take, List.drop_drop, List.take_take]
  congr 1
  omega

/-- sequential write at an offset that equals the length written so far -/
theorem blit_at {α : Type} (w src : List α) (x : α) (r o : Nat) (ho : o = w.length)
    (h : src.length ≤ r) :
    blit (w ++ List.replicate r x) o src
      = .ok ((w ++ src) ++ List.replicate (r - src.length) x) := by
  subst ho; exact blit_seq w src x r h

theorem packLoop_eq (d : List Bool) (base : Nat) (hb : base + 36 ≤ d.length) :
    ∀ (zs : List Nat) (p : Nat) (w : List (Option Bool)) (o r : Nat), o = w.length →
    Valid (sub d base) p zs → 36 - p ≤ r →
    packLoop (w ++ List.replicate r none) o d base p zs
      = .ok ((w ++ (segs (sub d base) p zs).map some) ++ List.replicate (r - (36 - p)) none) := by
  intro zs
  have hsub := sub_length d base hb
  induction zs with
  | nil =>
    intro p w o r ho hv hr
    have hp := hv.1
    rw [packLoop]
    simp only [cassert, hp, decide_true, if_true, bind_ok]
    rw [slice_sub d base p _ hb (by omega)]
    have e : ((sub d base).drop p).take (36 - p) = (sub d base).drop p := by
      apply List.take_of_length_le; rw [List.length_drop, hsub]; omega
    rw [e]
    simp only [bind_ok]
    rw [blit_at _ _ _ _ _ ho (by simp only [List.length_map, List.length_drop, hsub]; omega)]
    simp only [segs, List.length_map, List.length_drop, hsub]
  | cons z zs ih =>
    intro p w o r ho hv hr
    obtain ⟨h1, h2, h3, h4, h5⟩ := hv
    rw [packLoop, blit_at _ _ _ _ _ ho (by simp [zsp_length]; omega)]
    simp only [bind_ok, cassert, ge_iff_le, h1, decide_true, if_true, List.length_map, zsp_length]
    rw [slice_sub d base p _ hb (by omega)]
    simp only [bind_ok]
    rw [blit_at _ _ _ _ _ (by simp [zsp_length]; omega)
      (by simp only [List.length_map, List.length_take, List.length_drop, hsub]; omega)]
    simp only [bind_ok, List.length_map, List.length_take, List.length_drop, hsub]
    have e1 : p + (z - p + 8) = z + 8 := by omega
    rw [e1, ih (z + 8) _ _ _ (by
      simp only [List.length_append, List.length_map, zsp_length, List.length_take,
        List.length_drop, hsub]; omega) h5 (by omega)]
    simp only [segs, List.map_append, List.append_assoc]
    congr 5
    congr 1
    omega

theorem packSubframe_eq (d : List Bool) (base : Nat) (hb : base + 36 ≤ d.length)
    (w : List (Option Bool)) (o r : Nat) (ho : o = w.length) (hr : 37 ≤ r) :
    packSubframe (w ++ List.replicate r none) o d base
      = .ok ((w ++ (encSub (sub d base)).map some) ++ List.replicate (r - 37) none) := by
  have hsub := sub_length d base hb
  rw [packSubframe, findZSeqs_eq d base hb 0 [] (by simp)]
  simp only [bind_ok, List.nil_append]
  by_cases hz : zpos (sub d base) 0 = []
  · rw [if_pos (by simp [hz]), blit_at _ _ _ _ _ ho (by simp; omega)]
    simp only [bind_ok]
    have := slice_sub d base 0 36 hb (by omega)
    simp only [Nat.add_zero, List.drop_zero] at this
    rw [this, List.take_of_length_le (by rw [hsub]; exact Nat.le_refl _)]
    simp only [bind_ok]
    rw [blit_at _ _ _ _ _ (by simp [ho]) (by simp only [List.length_map, hsub, List.length_cons, List.length_nil]; omega)]
    simp only [encSub, hz, if_true, List.length_map, hsub, List.map_cons]
    simp only [List.append_assoc, List.cons_append, List.nil_append, List.length_cons, List.length_nil]
    congr 4
  · have hl : (zpos (sub d base) 0).length ≠ 0 := by simpa using hz
    rw [if_neg hl, blit_at _ _ _ _ _ ho (by simp; omega)]
    simp only [bind_ok]
    rw [packLoop_eq d base hb _ 0 _ _ _ (by simp [ho]) (zpos_valid0 _) (by simp; omega)]
    simp only [encSub, hz, if_false, List.map_cons, List.append_assoc, List.cons_append,
      List.nil_append, List.length_cons, List.length_nil]
    congr 4

/-- pure encoding of `n` subframes starting at `base` -/
def encSubs (d : List Bool) (base : Nat) : Nat → List Bool
  | 0 => []
  | n + 1 => encSub (sub d base) ++ encSubs d (base + 36) n

theorem packSubframes_eq (d : List Bool) : ∀ (n base : Nat) (w : List (Option Bool)) (o r : Nat),
    base + 36 * n ≤ d.length → o = w.length → 37 * n ≤ r →
    packSubframes (w ++ List.replicate r none) o d base n
      = .ok ((w ++ (encSubs d base n).map some) ++ List.replicate (r - 37 * n) none) := by
  intro n
  induction n with
  | zero => intro base w o r _ _ _; simp [packSubframes, encSubs]
  | succ n ih =>
    intro base w o r hb ho hr
    rw [packSubframes, packSubframe_eq d base (by omega) w o r ho (by omega)]
    simp only [bind_ok]
    rw [ih (base + 36) _ (o + 37) (r - 37) (by omega)
      (by simp [encSub_length _ (sub_length d base (by omega)), ho]) (by omega)]
    simp only [encSubs, List.map_append, List.append_assoc]
    congr 4
    congr 1
    omega

theorem encSubs_length (d : List Bool) : ∀ (n base : Nat), base + 36 * n ≤ d.length →
    (encSubs d base n).length = 37 * n
  | 0, _, _ => rfl
  | n + 1, base, h => by
    rw [encSubs, List.length_append, encSub_length _ (sub_length d base (by omega)),
      encSubs_length d n _ (by omega)]
    omega

theorem collect_map_some {α : Type} : ∀ l : List α, collect (l.map some) = .ok l
  | [] => rfl
  | a :: l => by simp [collect, collect_map_some l]

/-- the header written by the encoder -/
def hdr (c4 c5 m0 m1 : Bool) : List Bool :=
  List.replicate 16 false ++ [true, false, true, true, c4, c5, m0, m1]

/-- the whole frame, purely -/
def encFrame (m0 m1 : Bool) (d : List Bool) (c4 c5 : Bool) : List Bool :=
  hdr c4 c5 m0 m1 ++ encSubs d 0 8

theorem encFrame_length (m0 m1 : Bool) (d : List Bool) (c4 c5 : Bool) (hd : d.length = 288) :
    (encFrame m0 m1 d c4 c5).length = 320 := by
  simp [encFrame, hdr, encSubs_length d 8 0 (by omega)]

theorem toAtrauBits_eq (m0 m1 : Bool) (d : List Bool) (c4 c5 : Bool) (hd : d.length = 288) :
    toAtrauBits [m0, m1] d c4 c5 = .ok (encFrame m0 m1 d c4 c5) := by
  have h0 : (List.replicate ATRAU_BITS none : List (Option Bool))
      = [] ++ List.replicate 320 none := rfl
  rw [toAtrauBits, toAtrauBitsBuf, h0]
  rw [blit_at _ _ _ _ 0 (by simp) (by simp)]
  simp only [bind_ok, List.length_replicate]
  rw [blit_at _ _ _ _ _ (by simp) (by simp)]
  simp only [bind_ok]
  rw [blit_at _ _ _ _ _ (by simp) (by simp)]
  simp only [bind_ok]
  rw [blit_at _ _ _ _ _ (by simp) (by simp)]
  simp only [bind_ok]
  rw [blit_at _ _ _ _ _ (by simp) (by simp)]
  simp only [bind_ok]
  rw [blit_at _ _ _ _ _ (by simp) (by simp)]
  simp only [bind_ok]
  rw [blit_at _ _ _ _ _ (by simp) (by simp)]
  simp only [bind_ok, rd, List.getElem?_cons_zero, List.getElem?_cons_succ]
  rw [blit_at _ _ _ _ _ (by simp) (by simp)]
  simp only [bind_ok]
  rw [blit_at _ _ _ _ _ (by simp) (by simp)]
  simp only [bind_ok]
  rw [packSubframes_eq d 8 0 _ _ _ (by omega) (by simp) (by simp)]
  simp only [bind_ok, List.length_cons, List.length_nil, Nat.reduceAdd, Nat.reduceSub, Nat.reduceMul,
    List.replicate_zero, List.append_nil]
  rw [← collect_map_some (encFrame m0 m1 d c4 c5)]
  congr 1

/-! ### decoder -/

theorem decodeZsp_zsp (pre post : List Bool) (z : Nat) (f : Bool) (hz : z ≤ 28) (o : Nat)
    (ho : o = pre.length) :
    decodeZsp (pre ++ (zsp z f ++ post)) o = .ok (some z) := by
  subst ho
  have hr : ∀ i, rd (pre ++ (zsp z f ++ post)) (pre.length + i) = rd (zsp z f ++ post) i :=
    fun i => rd_append_right _ _ _
  have h0 : rd (pre ++ (zsp z f ++ post)) pre.length = .ok true := by
    have := hr 0; simpa [zsp, rd] using this
  have h7 : rd (pre ++ (zsp z f ++ post)) (pre.length + 7) = .ok true := by
    rw [hr]; rfl
  rw [decodeZsp, h0]
  simp only [bind_ok, h7, Bool.not_true, Bool.false_eq_true, if_false]
  simp only [zspPos, hr, Nat.add_assoc, Nat.reduceAdd]
  have e2 : rd (zsp z f ++ post) 2 = .ok ((((z + 1) % 256) >>> 4) % 2 == 1) := rfl
  have e3 : rd (zsp z f ++ post) 3 = .ok ((((z + 1) % 256) >>> 3) % 2 == 1) := rfl
  have e4 : rd (zsp z f ++ post) 4 = .ok ((((z + 1) % 256) >>> 2) % 2 == 1) := rfl
  have e5 : rd (zsp z f ++ post) 5 = .ok ((((z + 1) % 256) >>> 1) % 2 == 1) := rfl
  have e6 : rd (zsp z f ++ post) 6 = .ok ((((z + 1) % 256) >>> 0) % 2 == 1) := rfl
  rw [e2, e3, e4, e5, e6]
  simp only [bind_ok]
  have key : ∀ z, z ≤ 28 → (2 * (2 * (2 * (2 * (2 * 0 + ((((z + 1) % 256) >>> 4) % 2 == 1).toNat) +
      ((((z + 1) % 256) >>> 3) % 2 == 1).toNat) + ((((z + 1) % 256) >>> 2) % 2 == 1).toNat) +
      ((((z + 1) % 256) >>> 1) % 2 == 1).toNat) + ((((z + 1) % 256) >>> 0) % 2 == 1).toNat) = z + 1 := by
    intro z hz
    have : ∀ z : Fin 29, (2 * (2 * (2 * (2 * (2 * 0 + ((((z.1 + 1) % 256) >>> 4) % 2 == 1).toNat) +
      ((((z.1 + 1) % 256) >>> 3) % 2 == 1).toNat) + ((((z.1 + 1) % 256) >>> 2) % 2 == 1).toNat) +
      ((((z.1 + 1) % 256) >>> 1) % 2 == 1).toNat) + ((((z.1 + 1) % 256) >>> 0) % 2 == 1).toNat)
        = z.1 + 1 := by decide
    exact this ⟨z, by omega⟩
  rw [key z hz]
  rw [if_neg (by omega)]
  simp

theorem all_false_eq_replicate : ∀ (l : List Bool), l.all (fun b => !b) = true →
    l = List.replicate l.length false
  | [], _ => rfl
  | b :: l, h => by
    simp only [List.all_cons, Bool.and_eq_true, Bool.not_eq_eq_eq_not, Bool.not_true] at h
    rw [List.length_cons, List.replicate_succ, ← all_false_eq_replicate l h.2, h.1]

theorem isZ_take {d : List Bool} {z : Nat} (h : isZ d z = true) (hl : z + 8 ≤ d.length) :
    (d.drop z).take 8 = List.replicate 8 false := by
  have := all_false_eq_replicate _ h
  rw [this]
  congr 1
  simp
  omega

theorem split3 (d : List Bool) (p z : Nat) (h1 : p ≤ z) (hl : z + 8 ≤ d.length)
    (hz : isZ d z = true) :
    (d.drop p).take (z - p) ++ (List.replicate 8 false ++ d.drop (z + 8)) = d.drop p := by
  rw [← isZ_take hz hl]
  have e1 : d.drop (z + 8) = (d.drop z).drop 8 := by rw [List.drop_drop]
  rw [e1, List.take_append_drop]
  have e2 : d.drop z = (d.drop p).drop (z - p) := by rw [List.drop_drop]; congr 1; omega
  rw [e2, List.take_append_drop]

theorem decodeLoop_enc (d : List Bool) (hd : d.length = 36) :
    ∀ (zs : List Nat) (p : Nat), zs ≠ [] → Valid d p zs →
    ∀ (pre post : List Bool) (w : List (Option Bool)) (base o r fuel : Nat),
      o + p = pre.length → base + p = w.length → 36 - p ≤ r → zs.length ≤ fuel →
      decodeLoop (w ++ List.replicate r none) base (pre ++ (segs d p zs ++ post)) o p fuel
        = .ok (some ((w ++ (d.drop p).map some) ++ List.replicate (r - (36 - p)) none)) := by
  intro zs
  induction zs with
  | nil => intro p h; exact absurd rfl h
  | cons z zs ih =>
    intro p _ hv pre post w base o r fuel ho hbase hr hf
    obtain ⟨h1, h2, h3, h4, h5⟩ := hv
    obtain ⟨fuel, rfl⟩ : ∃ k, fuel = k + 1 := ⟨fuel - 1, by simp at hf; omega⟩
    have hlen2 : ((d.drop p).take (z - p)).length = z - p := by
      simp only [List.length_take, List.length_drop, hd]; omega
    have ea : pre ++ (segs d p (z :: zs) ++ post)
        = pre ++ (zsp z zs.isEmpty ++ ((d.drop p).take (z - p) ++ (segs d (z + 8) zs ++ post))) := by
      simp [segs]
    rw [decodeLoop, if_neg (by omega), ea, decodeZsp_zsp pre _ z _ h2 _ ho]
    simp only [bind_ok]
    have hc : rd (pre ++ (zsp z zs.isEmpty ++ ((d.drop p).take (z - p) ++ (segs d (z + 8) zs ++ post))))
        (o + p + 1) = .ok zs.isEmpty := by
      rw [ho, rd_append_right]; rfl
    rw [hc]
    simp only [bind_ok]
    rw [if_neg (by omega)]
    have hs : slice (pre ++ (zsp z zs.isEmpty ++ ((d.drop p).take (z - p) ++ (segs d (z + 8) zs ++ post))))
        (o + 8 + p) (z - p) = .ok ((d.drop p).take (z - p)) := by
      rw [slice_ok (by
        simp only [List.length_append, zsp_length, hlen2]; omega)]
      congr 1
      have : o + 8 + p = (pre ++ zsp z zs.isEmpty).length := by
        simp [zsp_length]; omega
      rw [← List.append_assoc pre, this, List.drop_left]
      rw [List.take_append_of_le_length (by rw [hlen2]; exact Nat.le_refl _),
        List.take_of_length_le (by rw [hlen2]; exact Nat.le_refl _)]
    rw [hs]
    simp only [bind_ok]
    rw [blit_at _ _ _ _ _ hbase (by simp only [List.length_map, hlen2]; omega)]
    simp only [bind_ok, List.length_map, hlen2]
    rw [blit_at _ _ _ _ _ (by simp only [List.length_append, List.length_map, hlen2]; omega)
      (by simp; omega)]
    simp only [bind_ok, List.length_replicate]
    have e8 : p + (z - p + 8) = z + 8 := by omega
    rw [e8]
    have hdrop : (w ++ List.map some ((d.drop p).take (z - p)) ++ List.replicate 8 (some false))
        ++ (d.drop (z + 8)).map some = w ++ (d.drop p).map some := by
      have e := congrArg (List.map some) (split3 d p z h1 (by omega) h3)
      rw [List.map_append, List.map_append, List.map_replicate] at e
      rw [List.append_assoc, List.append_assoc, e]
    cases zs with
    | nil =>
      simp only [List.isEmpty_nil, if_true, cassert]
      rw [if_pos (by simp; omega)]
      simp only [bind_ok]
      have hs2 : slice (pre ++ (zsp z true ++ ((d.drop p).take (z - p) ++ (segs d (z + 8) [] ++ post))))
          (o + (z + 8)) (36 - (z + 8)) = .ok (d.drop (z + 8)) := by
        rw [slice_ok (by
          simp only [List.length_append, zsp_length, hlen2, segs, List.length_drop, hd]; omega)]
        congr 1
        have : o + (z + 8) = (pre ++ (zsp z true ++ (d.drop p).take (z - p))).length := by
          simp only [List.length_append, zsp_length, hlen2]; omega
        rw [show pre ++ (zsp z true ++ ((d.drop p).take (z - p) ++ (segs d (z + 8) [] ++ post)))
          = (pre ++ (zsp z true ++ (d.drop p).take (z - p))) ++ (d.drop (z + 8) ++ post) by
            simp [segs], this, List.drop_left]
        rw [List.take_append_of_le_length (by simp only [List.length_drop, hd]; omega),
          List.take_of_length_le (by simp only [List.length_drop, hd]; omega)]
      rw [hs2]
      simp only [bind_ok]
      rw [blit_at _ _ _ _ _
        (by simp only [List.length_append, List.length_map, hlen2, List.length_replicate]; omega)
        (by simp only [List.length_map, List.length_drop, hd]; omega)]
      simp only [bind_ok, List.length_map, List.length_drop, hd]
      rw [hdrop]
      congr 4
      omega
    | cons z' zs' =>
      simp only [List.isEmpty_cons, Bool.false_eq_true, if_false]
      rw [show pre ++ (zsp z false ++ ((d.drop p).take (z - p) ++ (segs d (z + 8) (z' :: zs') ++ post)))
          = (pre ++ (zsp z false ++ (d.drop p).take (z - p))) ++ (segs d (z + 8) (z' :: zs') ++ post) by
            simp]
      rw [ih (z + 8) (by simp) h5 _ post _ base o _ fuel
        (by simp only [List.length_append, zsp_length, hlen2]; omega)
        (by simp only [List.length_append, List.length_map, hlen2, List.length_replicate]; omega)
        (by omega) (by simp at hf ⊢; omega)]
      rw [hdrop]
      congr 4
      omega

theorem decodeSubframe_enc (d : List Bool) (hd : d.length = 36) (pre post : List Bool)
    (w : List (Option Bool)) (base o r : Nat) (ho : o = pre.length) (hb : base = w.length)
    (hr : 36 ≤ r) :
    decodeSubframe (w ++ List.replicate r none) base (pre ++ (encSub d ++ post)) o
      = .ok (some ((w ++ d.map some) ++ List.replicate (r - 36) none)) := by
  have hv := zpos_valid0 d
  rw [decodeSubframe]
  by_cases hz : zpos d 0 = []
  · have he : encSub d = true :: d := by simp [encSub, hz]
    rw [he]
    have h0 : rd (pre ++ ((true :: d) ++ post)) o = .ok true := by
      have := rd_append_right pre ((true :: d) ++ post) 0
      rw [ho]; simpa [rd] using this
    rw [h0]
    simp only [bind_ok, if_true]
    have hs : slice (pre ++ ((true :: d) ++ post)) (o + 1) 36 = .ok d := by
      rw [slice_ok (by simp [hd]; omega)]
      congr 1
      rw [show pre ++ ((true :: d) ++ post) = (pre ++ [true]) ++ (d ++ post) by simp]
      rw [show o + 1 = (pre ++ [true]).length by simp [ho], List.drop_left]
      rw [List.take_append_of_le_length (by omega), List.take_of_length_le (by omega)]
    rw [hs]
    simp only [bind_ok]
    rw [blit_at _ _ _ _ _ hb (by simp [hd]; omega)]
    simp [hd]
  · have he : encSub d = false :: segs d 0 (zpos d 0) := by simp [encSub, hz]
    rw [he]
    have h0 : rd (pre ++ ((false :: segs d 0 (zpos d 0)) ++ post)) o = .ok false := by
      have := rd_append_right pre ((false :: segs d 0 (zpos d 0)) ++ post) 0
      rw [ho]; simpa [rd] using this
    rw [h0]
    simp only [bind_ok, Bool.false_eq_true, if_false]
    have hc := hv.count
    rw [show pre ++ ((false :: segs d 0 (zpos d 0)) ++ post)
      = (pre ++ [false]) ++ (segs d 0 (zpos d 0) ++ post) by simp]
    rw [decodeLoop_enc d hd _ 0 hz hv _ _ _ _ _ _ _ (by simp [ho]) (by simp [hb]) (by omega)
      (by omega)]
    simp

theorem decodeSubframes_enc (d : List Bool) : ∀ (n base : Nat), base + 36 * n ≤ d.length →
    ∀ (pre post : List Bool) (w : List (Option Bool)) (o r : Nat), o = pre.length →
      base = w.length → 36 * n ≤ r →
      decodeSubframes (w ++ List.replicate r none) base (pre ++ (encSubs d base n ++ post)) o n
      = .ok (some ((w ++ ((d.drop base).take (36 * n)).map some)
          ++ List.replicate (r - 36 * n) none)) := by
  intro n
  induction n with
  | zero => intros; simp [decodeSubframes]
  | succ n ih =>
    intro base hb pre post w o r ho hbw hr
    have hsl := sub_length d base (by omega)
    rw [decodeSubframes, encSubs, List.append_assoc (encSub _),
      decodeSubframe_enc _ hsl pre _ w base o r ho hbw (by omega)]
    simp only [bind_ok]
    rw [← List.append_assoc pre]
    rw [ih (base + 36) (by omega) _ post _ (o + 37) (r - 36)
      (by simp [encSub_length _ hsl, ho])
      (by rw [List.length_append, List.length_map, hsl, ← hbw]) (by omega)]
    congr 3
    · rw [List.append_assoc, ← List.map_append]
      congr 2
      rw [sub, show 36 * (n + 1) = 36 + 36 * n by omega, List.take_add, List.drop_drop]
    · congr 1; omega

theorem fromAtrauBits_enc (m0 m1 : Bool) (d : List Bool) (c4 c5 : Bool) (hd : d.length = 288) :
    fromAtrauBits (encFrame m0 m1 d c4 c5)
      = .ok (some { m := [m0, m1], d := d, c4 := c4, c5 := c5 }) := by
  rw [fromAtrauBits]
  have hlen := encFrame_length m0 m1 d c4 c5 hd
  have hs : slice (encFrame m0 m1 d c4 c5) 0 20 = .ok headerBits := by
    rw [slice_ok (by omega)]; rfl
  rw [hs]
  simp only [bind_ok, ne_eq, not_true_eq_false, if_false]
  have e20 : rd (encFrame m0 m1 d c4 c5) 20 = .ok c4 := rfl
  have e21 : rd (encFrame m0 m1 d c4 c5) 21 = .ok c5 := rfl
  have e22 : rd (encFrame m0 m1 d c4 c5) 22 = .ok m0 := rfl
  have e23 : rd (encFrame m0 m1 d c4 c5) 23 = .ok m1 := rfl
  rw [e20, e21, e22, e23]
  simp only [bind_ok]
  have := decodeSubframes_enc d 8 0 (by omega) (hdr c4 c5 m0 m1) [] [] 24 288 rfl rfl (by omega)
  rw [List.append_nil, List.nil_append, ← encFrame] at this
  rw [this]
  simp only [bind_ok, List.nil_append, List.drop_zero, Nat.reduceMul, Nat.reduceSub, Nat.sub_self,
    List.replicate_zero, List.append_nil]
  rw [List.take_of_length_le (by omega), collect_map_some]
  rfl

end Verif.RaaPrime
