import Verif.Props.Chain
import Verif.Props.EricssonErr
/-!
# C156: streams of Ericsson PCU/CCU frames, synchronised and decoded
-/
namespace Verif.Chain
open Verif Verif.TrauSync Verif.Ericsson Verif.Ericsson.Spec
set_option maxRecDepth 10000

/-- an instance that has received nothing and whose primary pattern is `p` -/
structure New (g : Nat → Nat → Byte) (s : St) (p : Pat) : Prop where
  reach : Reach g s
  fsm : s.fsm ≠ .aligned
  prim : s.pats[0]? = some (some p)
  tab : p ∈ syncPatterns
  ring : ring s = List.replicate HIST 1
  errs : s.errs = 0

theorem idle_no_match {p : Pat} (hp : p ∈ syncPatterns) (n : Nat) (xs : List Byte) (j : Nat) (h1 : p.nbits ≤ j) (h2 : j < n + p.nbits) :
    ¬ Matches p (window (List.replicate n 1 ++ xs) p.nbits j) := by
  intro hM
  obtain ⟨z1, z2, z3⟩ := first_zero p hp
  have := hM 0 (by show 0 < p.nbits; omega) z1
  rw [z2] at this
  unfold window at this
  rw [List.getElem?_drop, List.getElem?_take_of_lt (by omega), List.getElem?_append_left (by simp; omega), List.getElem?_replicate_of_lt (by omega)] at this
  cases this

/-- every block is delivered from the first that matches the primary pattern, as long as no three blocks in a row match none of the patterns -/
theorem blocks_of {g : Nat → Nat → Byte} {s : St} {p : Pat} (hN : New g s p) (n : Nat) (f : List Byte) (bs : List (List Byte))
    (hl : ∀ b ∈ f :: bs, b.length = p.nbits) (hm : Matches p f) (hn : NoTriple (Fails s) bs) (chunks : List (List Byte))
    (hc : chunks.flatten = List.replicate n 1 ++ (f :: bs).flatten) :
    ∃ s', feed g s chunks = .ok (s', (f :: bs).map some) ∧ s'.fsm = .aligned := by
  obtain ⟨r0, hf, hp, ht, hr, he⟩ := hN
  have hfl : f.length = p.nbits := hl f (by simp)
  have hpr : prim s = p := by
    obtain ⟨p', ps, hps⟩ := r0.inv.prim
    rw [hps] at hp; simp at hp; simp [prim, hps, hp]
  have hw : window (List.replicate n 1 ++ (f :: bs).flatten) p.nbits (n + p.nbits) = f := by
    unfold window
    have : (n + p.nbits) - p.nbits = n := by omega
    rw [this, List.flatten_cons, ← List.append_assoc, List.take_left' (by simp [hfl])]
    exact List.drop_left' (by simp)
  obtain ⟨s1, h1, h2, h3, h4, h5⟩ := first_match_of g s p r0.inv hf hpr ht hr he (List.replicate n 1 ++ (f :: bs).flatten) (n + p.nbits) (by omega)
    (by simp [hfl]) (by rw [hw]; exact hm) (fun j j1 j2 => idle_no_match ht n _ j j1 j2)
  rw [hw] at h1
  have r1 : Reach g s1 := .step (o := .rx _) r0 trivial h1
  obtain ⟨s2, k1, k2⟩ := C19_keeps_alignment g s1 r1 ⟨h2, h3, h4⟩ p (by rw [h5]; exact hp) bs (fun b hb => hl b (by simp [hb])) (by
    intro pre a b c post e h
    refine hn pre a b c post e ?_
    unfold Fails at h ⊢
    rw [h5] at h
    exact h)
  refine ⟨s2, ?_, k2⟩
  rw [feed_eq g _ s r0, hc]
  have hx : (List.replicate n 1 ++ (f :: bs).flatten).take (n + p.nbits) = List.replicate n 1 ++ f := by
    rw [List.flatten_cons, ← List.append_assoc]; exact List.take_left' (by simp [hfl])
  rw [hx] at h1
  obtain ⟨t1, a1, t2, a2, q1, q2, q3⟩ := C15_chunking g s r0 (List.replicate n 1 ++ f) bs.flatten
  rw [h1] at q1
  cases q1
  rw [k1] at q2
  cases q2
  rw [List.flatten_cons, ← List.append_assoc, q3]
  simp

theorem new_alloc (g : Nat → Nat → Byte) {i : Nat} {s : St} {p : Pat} (ha : alloc i = some s) (hp : syncPatterns[i]? = some p) : New g s p := by
  have r : Reach g s := .alloc ha
  unfold alloc at ha
  rw [hp] at ha
  cases ha
  exact ⟨r, by simp, rfl, List.mem_of_getElem? hp, by simp [ring], rfl⟩

/-! ### the patterns of the Ericsson links -/

/-- a pattern of `len` octets: `z` zeros and a one, the rest is not looked at -/
def hdrPat (len z : Nat) : Pat :=
  ⟨len, List.replicate z 0 ++ [1] ++ List.replicate (len * 8 - z - 1) 0, List.replicate (z + 1) 1 ++ List.replicate (len * 8 - z - 1) 0⟩

theorem pat_ids : syncPatterns[6]? = some (hdrPat 40 16) ∧ syncPatterns[7]? = some (hdrPat 160 64) ∧ syncPatterns[8]? = some (hdrPat 160 16) := by
  decide +kernel

theorem hdr_mask (len z : Nat) (i : Nat) (hi : i < len * 8) : (hdrPat len z).mask[i]? ≠ some 0 ↔ i ≤ z := by
  simp only [hdrPat]
  rcases Nat.lt_or_ge i (z + 1) with h | h
  · rw [List.getElem?_append_left (by simpa using h), List.getElem?_replicate_of_lt h]
    simp; omega
  · rw [List.getElem?_append_right (by simpa using h), List.getElem?_replicate_of_lt (by simp; omega)]
    simp; omega

theorem hdr_bits (len z : Nat) (i : Nat) (hi : i ≤ z) : (hdrPat len z).bits[i]? = some (if i = z then 1 else 0) := by
  simp only [hdrPat]
  rw [List.getElem?_append_left (by simp; omega)]
  rcases Nat.lt_or_ge i z with h | h
  · rw [List.getElem?_append_left (by simpa using h), List.getElem?_replicate_of_lt h, if_neg (by omega)]
  · have : i = z := by omega
    subst this
    rw [List.getElem?_append_right (by simp), if_pos rfl]; simp

theorem matches_hdr {len z : Nat} (hz : z < len * 8) {w : List Bool} (hw : w.length = len * 8) :
    Matches (hdrPat len z) (ubs w) ↔ fld w 0 (z + 1) = zeros z ++ [true] := by
  have h1 := hdr_mask len z
  have h2 := hdr_bits len z
  have hg : ∀ i : Nat, (ubs w)[i]? = (w[i]?).map fun (x : Bool) => if x then (1 : Byte) else 0 := by intro i; simp [ubs]
  constructor
  · intro hM
    apply List.ext_getElem?
    intro i
    unfold fld
    rw [List.drop_zero]
    rcases Nat.lt_or_ge i (z + 1) with h | h
    · rw [List.getElem?_take_of_lt h]
      have key := hM i (by show i < len * 8; omega) ((h1 i (by omega)).2 (by omega))
      rw [hg, h2 i (by omega)] at key
      have hwi : ∃ x, w[i]? = some x := ⟨_, List.getElem?_eq_getElem (by omega)⟩
      obtain ⟨x, hx⟩ := hwi
      rw [hx] at key ⊢
      simp only [Option.map_some, Option.some.injEq] at key
      rcases Nat.lt_or_ge i z with h' | h'
      · rw [List.getElem?_append_left (by simpa [zeros] using h')]
        simp only [zeros]
        rw [List.getElem?_replicate_of_lt h']
        rw [if_neg (show ¬ i = z by omega)] at key
        cases x with
        | false => rfl
        | true => exact absurd key (by decide)
      · have e : i = z := by omega
        subst e
        rw [List.getElem?_append_right (by simp [zeros])]
        simp only [zeros, List.length_replicate, Nat.sub_self, List.getElem?_cons_zero, Option.some.injEq]
        rw [if_pos rfl] at key
        cases x with
        | true => rfl
        | false => exact absurd key (by decide)
    · rw [List.getElem?_eq_none (by simp; omega), List.getElem?_eq_none (by simp [zeros]; omega)]
  · intro hf i hi hmask
    have hi' : i ≤ z := (h1 i hi).1 hmask
    rw [hg, h2 i hi']
    have : w[i]? = (zeros z ++ [true])[i]? := by
      rw [← hf]; unfold fld; rw [List.drop_zero, List.getElem?_take_of_lt (by omega)]
    rw [this]
    rcases Nat.lt_or_ge i z with h | h
    · rw [List.getElem?_append_left (by simpa [zeros] using h), if_neg (by omega)]
      simp only [zeros]
      rw [List.getElem?_replicate_of_lt h]; rfl
    · have : i = z := by omega
      subst this
      rw [List.getElem?_append_right (by simp [zeros]), if_pos rfl]
      simp [zeros]


/-! ### C156, 16k -/

/-- a frame whose first 17 bits are sixteen zeros and a one -/
def Hdr16 (w : List Bool) : Prop := fld w 0 17 = zeros 16 ++ [true]

/-- no three consecutive frames are bad -/
def NoThree (bad : List Bool → Prop) (l : List (List Bool)) : Prop :=
  ∀ pre a b c post, l = pre ++ a :: b :: c :: post → ¬ (bad a ∧ bad b ∧ bad c)

theorem map_split3 {ws : List (List Bool)} {pre : List (List Byte)} {a b c : List Byte} {post : List (List Byte)} (h : ws.map ubs = pre ++ a :: b :: c :: post) :
    ∃ pre' a' b' c' post', ws = pre' ++ a' :: b' :: c' :: post' ∧ ubs a' = a ∧ ubs b' = b ∧ ubs c' = c := by
  obtain ⟨l1, l2, rfl, -, h2⟩ := List.map_eq_append_iff.1 h
  obtain ⟨a', l3, rfl, e1, h3⟩ := List.map_eq_cons_iff.1 h2
  obtain ⟨b', l4, rfl, e2, h4⟩ := List.map_eq_cons_iff.1 h3
  obtain ⟨c', l5, rfl, e3, -⟩ := List.map_eq_cons_iff.1 h4
  exact ⟨l1, a', b', c', l5, rfl, e1, e2, e3⟩

theorem ubs_length (w : List Bool) : (ubs w).length = w.length := by simp [ubs]

/-- **C156** Whatever number of ones precedes: a synchroniser for the 16k link of an Ericsson BTS delivers each frame of the stream, from the first that begins with the alignment bits, once, unchanged
and in order, whatever the division of the stream into buffers and the contents of the frames, unless the alignment bits of three frames in a row are errored. -/
theorem C156_stream16 (g : Nat → Nat → Byte) (s : St) (ha : alloc 6 = some s) (n : Nat) (w : List Bool) (ws : List (List Bool)) (hl : ∀ x ∈ w :: ws, x.length = 320)
    (hw : Hdr16 w) (hn : NoThree (fun x => ¬ Hdr16 x) ws) (chunks : List (List Byte)) (hc : chunks.flatten = List.replicate n 1 ++ ((w :: ws).map ubs).flatten) :
    ∃ s', feed g s chunks = .ok (s', (w :: ws).map fun x => some (ubs x)) := by
  obtain ⟨s', h, -⟩ := C151_blocks g 6 s (hdrPat 40 16) ha pat_ids.1 n (ubs w) (ws.map ubs)
    (by
      intro b hb
      rw [← List.map_cons (f := ubs)] at hb
      obtain ⟨x, hx, rfl⟩ := List.mem_map.1 hb
      rw [ubs_length]; exact hl x hx)
    ((matches_hdr (len := 40) (z := 16) (by decide) (hl w (by simp))).2 hw)
    (by
      intro pre a b c post e hb
      obtain ⟨pre', a', b', c', post', e', rfl, rfl, rfl⟩ := map_split3 e
      refine hn pre' a' b' c' post' e' ?_
      have hm : ∀ x ∈ ws, ¬ Matches (hdrPat 40 16) (ubs x) → ¬ Hdr16 x := fun x hx hq hh =>
        hq ((matches_hdr (len := 40) (z := 16) (by decide) (hl x (by simp [hx]))).2 hh)
      exact ⟨hm _ (by rw [e']; simp) hb.1, hm _ (by rw [e']; simp) hb.2.1, hm _ (by rw [e']; simp) hb.2.2⟩)
    chunks (by rw [hc, List.map_cons])
  refine ⟨s', ?_⟩
  rw [h]
  simp [Function.comp_def]

theorem fld_split (b : List Bool) (n m : Nat) : fld b 0 (n + m) = fld b 0 n ++ fld b n m := by
  unfold fld
  rw [List.drop_zero, List.take_add]

theorem sync16_hdr {b : List Bool} {i : CcuSync} (h : IsCcuSync16 b i) : Hdr16 b := by
  unfold Hdr16
  rw [fld_split b 16 1, h.sync]
  have := h.t 0 (by decide)
  rw [this]

/-- what a 16k frame of the CCU says -/
inductive Says16 (b : List Bool) : DecFrame → Prop
  | sync {i} : IsCcuSync16 b i → Says16 b (.sync i)
  | data {i} : IsCcuData16 b i → Says16 b (.data i)

/-- **C156** From the CCU to the user, 16k: whatever frames the CCU sends after an idle line, each is delivered, and decoding the delivered bits yields what the frame says -/
theorem C156_ccu16 (g : Nat → Nat → Byte) (s : St) (ha : alloc 6 = some s) (n : Nat) (ws : List (List Bool)) (fs : List DecFrame) (hf : Each Says16 ws fs) (hl : ∀ x ∈ ws, x.length = 320)
    (hne : ws ≠ []) (chunks : List (List Byte)) (hc : chunks.flatten = List.replicate n 1 ++ (ws.map ubs).flatten) :
    ∃ s', feed g s chunks = .ok (s', ws.map fun x => some (ubs x)) ∧ Each (fun x f => decode16 x = .ok (0, f)) ws fs := by
  have hh : ∀ x ∈ ws, Hdr16 x := by
    clear hc hne hl
    induction hf with
    | nil => simp
    | cons a _ ih =>
      intro x hx
      rcases List.mem_cons.1 hx with rfl | hx
      · cases a with
        | sync h => exact sync16_hdr h
        | data h => exact h.sync
      · exact ih x hx
  have hd : Each (fun x f => decode16 x = .ok (0, f)) ws fs := by
    clear hc hne hh
    induction hf with
    | nil => exact .nil
    | cons a _ ih =>
      refine .cons ?_ (ih fun x hx => hl x (by simp [hx]))
      cases a with
      | sync h => exact (C36_decode_sync _ (hl _ (by simp)) _).2 h
      | data h => exact (C36_decode_data _ (hl _ (by simp)) _).2 h
  cases ws with
  | nil => exact absurd rfl hne
  | cons w ws =>
    obtain ⟨s', h⟩ := C156_stream16 g s ha n w ws hl (hh w (by simp)) (by
      intro pre a b c post e hb
      exact hb.1 (hh a (by rw [List.mem_cons, e]; simp))) chunks hc
    exact ⟨s', h, hd⟩

/-! ### C156, 64k -/

/-- the synchroniser of the 64k link: the MCS-9 pattern is added to the other one -/
def Link64 (g : Nat → Nat → Byte) (s : St) : Prop := ∃ s0 e, alloc 7 = some s0 ∧ setSecondary g s0 8 1 = .ok (s, e)

theorem link64_pats {g : Nat → Nat → Byte} {s : St} (h : Link64 g s) :
    New g s (hdrPat 160 64) ∧ s.pats = some (hdrPat 160 64) :: some (hdrPat 160 16) :: List.replicate 6 none := by
  obtain ⟨s0, e, h0, h1⟩ := h
  have N0 := new_alloc g h0 pat_ids.2.1
  have hr : Reach g s := .step (o := .setSecondary 8 1) (.alloc h0) ⟨by decide, by decide, _, _, N0.prim, pat_ids.2.2, rfl⟩ h1
  unfold alloc at h0
  rw [pat_ids.2.1] at h0
  cases h0
  have p8 : rd syncPatterns 8 = .ok (hdrPat 160 16) := by
    unfold rd; rw [pat_ids.2.2]
  have hs : s = ⟨List.replicate HIST 1, 0, some (hdrPat 160 64) :: some (hdrPat 160 16) :: List.replicate 6 none, 0, .wait, false, 0⟩ := by
    unfold setSecondary at h1
    rw [p8] at h1
    exact ((Prod.mk.inj (Except.ok.inj h1)).1).symm
  subst hs
  exact ⟨⟨hr, by simp, rfl, N0.tab, by simp [ring], rfl⟩, rfl⟩

/-- a frame that begins with 64 zeros and a one -/
def Hdr64 (w : List Bool) : Prop := fld w 0 65 = zeros 64 ++ [true]

/-- **C156** The same on the 64k link, where the frames with MCS-9 have alignment bits of their own: from the first frame with the long alignment bits, all are delivered, with MCS-9 or not, in any order -/
theorem C156_stream64 (g : Nat → Nat → Byte) (s : St) (ha : Link64 g s) (n : Nat) (w : List Bool) (ws : List (List Bool)) (hl : ∀ x ∈ w :: ws, x.length = 1280)
    (hw : Hdr64 w) (hn : NoThree (fun x => ¬ Hdr64 x ∧ ¬ Hdr16 x) ws) (chunks : List (List Byte)) (hc : chunks.flatten = List.replicate n 1 ++ ((w :: ws).map ubs).flatten) :
    ∃ s', feed g s chunks = .ok (s', (w :: ws).map fun x => some (ubs x)) := by
  obtain ⟨hN, hp⟩ := link64_pats ha
  obtain ⟨s', h, -⟩ := blocks_of hN n (ubs w) (ws.map ubs)
    (by
      intro b hb
      rw [← List.map_cons (f := ubs)] at hb
      obtain ⟨x, hx, rfl⟩ := List.mem_map.1 hb
      rw [ubs_length]; exact hl x hx)
    ((matches_hdr (len := 160) (z := 64) (by decide) (hl w (by simp))).2 hw)
    (by
      intro pre a b c post e hb
      obtain ⟨pre', a', b', c', post', e', rfl, rfl, rfl⟩ := map_split3 e
      refine hn pre' a' b' c' post' e' ?_
      have hm : ∀ x ∈ ws, Fails s (ubs x) → ¬ Hdr64 x ∧ ¬ Hdr16 x := fun x hx hq =>
        ⟨fun hh => hq _ (by rw [hp]; simp) ((matches_hdr (len := 160) (z := 64) (by decide) (hl x (by simp [hx]))).2 hh),
         fun hh => hq _ (by rw [hp]; simp) ((matches_hdr (len := 160) (z := 16) (by decide) (hl x (by simp [hx]))).2 hh)⟩
      exact ⟨hm _ (by rw [e']; simp) hb.1, hm _ (by rw [e']; simp) hb.2.1, hm _ (by rw [e']; simp) hb.2.2⟩)
    chunks (by rw [hc, List.map_cons])
  refine ⟨s', ?_⟩
  rw [h]
  simp [Function.comp_def]

/-- what a 64k frame of the CCU is -/
inductive IsCcu64 (b : List Bool) : Prop
  | sync {i} : IsCcuSync64 b i → IsCcu64 b
  | data {i} : IsCcuData64 b i → IsCcu64 b
  | mcs9 {i} : IsCcuMcs9 b i → IsCcu64 b

theorem sync64_hdr {b : List Bool} {i : CcuSync} (h : IsCcuSync64 b i) : Hdr64 b := by
  unfold Hdr64
  rw [fld_split b 64 1, h.sync]
  have := h.t 0 (by decide)
  rw [this]

theorem ccu64_hdr {b : List Bool} (h : IsCcu64 b) : Hdr64 b ∨ Hdr16 b := by
  cases h with
  | sync h => exact .inl (sync64_hdr h)
  | data h => exact .inl h.sync
  | mcs9 h => exact .inr h.sync

/-- **C156** From the CCU to the user, 64k: all frames of the CCU (sync, data and MCS-9 in any order) are delivered, if the first is a sync frame (as is the case when the link is set up), and
the sync frames among them are decoded to what they say.  (For data frames see C37.) -/
theorem C156_ccu64 (g : Nat → Nat → Byte) (s : St) (ha : Link64 g s) (n : Nat) (w : List Bool) (i : CcuSync) (hi : IsCcuSync64 w i) (ws : List (List Bool)) (hf : ∀ x ∈ ws, IsCcu64 x)
    (hl : ∀ x ∈ w :: ws, x.length = 1280) (chunks : List (List Byte)) (hc : chunks.flatten = List.replicate n 1 ++ ((w :: ws).map ubs).flatten) :
    ∃ s', feed g s chunks = .ok (s', (w :: ws).map fun x => some (ubs x)) ∧
      ∀ st, st.length = 1234 → ∀ x ∈ w :: ws, ∀ j, IsCcuSync64 x j → decode64 st x = .ok (0, .sync j) := by
  obtain ⟨s', h⟩ := C156_stream64 g s ha n w ws hl (sync64_hdr hi) (by
    intro pre a b c post e hb
    rcases ccu64_hdr (hf a (by rw [e]; simp)) with q | q
    · exact hb.1.1 q
    · exact hb.1.2 q) chunks hc
  exact ⟨s', h, fun st hst x hx j hj => (C37_decode_sync st x hst (hl x hx) j).2 hj⟩

/-- **C156 violated** (each frame is delivered): without the secondary pattern the third MCS-9 frame in a row is not delivered, alignment is lost instead -/
theorem C156_mcs9_alone_violated (g : Nat → Nat → Byte) (s : St) (ha : alloc 7 = some s) (w a b c : List Bool) (hl : ∀ x ∈ [w, a, b, c], x.length = 1280)
    (hw : Hdr64 w) (h1 : Hdr16 a) (h2 : Hdr16 b) (h3 : Hdr16 c) :
    ∃ s', rxUbits g s (ubs w ++ [ubs a, ubs b, ubs c].flatten) = .ok (s', [some (ubs w), some (ubs a), some (ubs b), none]) := by
  have no64 : ∀ x : List Bool, Hdr16 x → ¬ Hdr64 x := by
    intro x q1 q2
    unfold Hdr16 at q1
    unfold Hdr64 at q2
    have : fld x 0 17 = (fld x 0 65).take 17 := by unfold fld; rw [List.take_take]; rfl
    rw [q2, q1] at this
    exact absurd this (by decide)
  obtain ⟨s1, k1, k2⟩ := C151_blocks g 7 s (hdrPat 160 64) ha pat_ids.2.1 0 (ubs w) [] (by
      intro x hx; rw [List.mem_singleton.1 hx, ubs_length]; exact hl w (by simp))
    ((matches_hdr (len := 160) (z := 64) (by decide) (hl w (by simp))).2 hw)
    (by intro pre a b c post e; simp at e) [ubs w] (by simp)
  have r0 : Reach g s := .alloc ha
  rw [feed_eq g _ s r0] at k1
  simp only [List.flatten_cons, List.flatten_nil, List.append_nil, List.map_cons, List.map_nil] at k1
  have r1 : Reach g s1 := .step (o := .rx _) r0 trivial k1
  -- the state right after the first frame
  have hwm := (matches_hdr (len := 160) (z := 64) (by decide) (hl w (by simp))).2 hw
  have hwl : (ubs w).length = 1280 := by rw [ubs_length]; exact hl w (by simp)
  have hwin : window (ubs w) (hdrPat 160 64).nbits 1280 = ubs w := by
    unfold window
    rw [List.take_of_length_le (by omega)]
    rfl
  obtain ⟨s2, q1, q2, q3, q4, q5⟩ := C18_first_match g 7 s (hdrPat 160 64) ha pat_ids.2.1 (ubs w) 1280 (by decide) (by omega) (by rw [hwin]; exact hwm)
    (by intro j j1 j2; exact absurd j1 (by show ¬ 1280 ≤ j; omega))
  rw [List.take_of_length_le (by omega), k1] at q1
  obtain ⟨rfl, -⟩ := Prod.mk.inj (Except.ok.inj q1)
  have hpats : s1.pats = some (hdrPat 160 64) :: List.replicate 7 none := by
    rw [q5]; unfold alloc at ha; rw [pat_ids.2.1] at ha; cases ha; rfl
  have hF : ∀ x, x.length = 1280 → Hdr16 x → Fails s1 (ubs x) := by
    intro x hx q p hp hm
    rw [hpats] at hp
    simp at hp
    subst hp
    exact no64 x q ((matches_hdr (len := 160) (z := 64) (by decide) hx).1 hm)
  obtain ⟨s3, m1, -⟩ := C19_loss g s1 r1 ⟨q2, q3, q4⟩ (hdrPat 160 64) (by rw [hpats]; rfl) [] (ubs a) (ubs b) (ubs c)
    (by
      intro x hx
      simp only [List.nil_append, List.mem_cons, List.not_mem_nil, or_false] at hx
      rcases hx with rfl | rfl | rfl
      · rw [ubs_length]; exact hl a (by simp)
      · rw [ubs_length]; exact hl b (by simp)
      · rw [ubs_length]; exact hl c (by simp))
    (by
      intro pre x y z post e
      have := congrArg List.length e
      simp at this; omega)
    (hF a (hl a (by simp)) h1) (hF b (hl b (by simp)) h2) (hF c (hl c (by simp)) h3)
  obtain ⟨t1, a1, t2, a2, p1, p2, p3⟩ := C15_chunking g s r0 (ubs w) [ubs a, ubs b, ubs c].flatten
  rw [k1] at p1
  obtain ⟨rfl, rfl⟩ := Prod.mk.inj (Except.ok.inj p1)
  rw [List.nil_append] at m1
  rw [m1] at p2
  obtain ⟨rfl, rfl⟩ := Prod.mk.inj (Except.ok.inj p2)
  exact ⟨_, p3⟩

/-- what begins with 64 zeros is found, nothing else: a stream without 64 zeros in a row yields no frame, whatever MCS-9 frames are in it -/
theorem no_zeros_nothing (g : Nat → Nat → Byte) (s : St) (ha : Link64 g s) (xs : List Byte) (hz : ∀ j, j < xs.length → ∃ i < 64, xs[j + i]? = some 1) :
    ∃ s', rxUbits g s xs = .ok (s', []) := by
  obtain ⟨hN, hp⟩ := link64_pats ha
  have hpr : prim s = hdrPat 160 64 := by simp [prim, hp]
  refine nothing_of g s (hdrPat 160 64) hN.reach.inv hN.fsm hpr hN.tab hN.ring xs ?_
  intro k k1 k2 hM
  have k1' : 1280 ≤ k := k1
  obtain ⟨i, hi, h1⟩ := hz (k - 1280) (by omega)
  have := hM i (by show i < 1280; omega) ((hdr_mask 160 64 i (by omega)).2 (by omega))
  rw [hdr_bits 160 64 i (by omega), if_neg (by omega)] at this
  unfold window at this
  rw [List.getElem?_drop, List.getElem?_take_of_lt (by show k - 1280 + i < k; omega)] at this
  have e : xs[k - 1280 + i]? = some 0 := this
  rw [h1] at e
  exact absurd e (by decide)

/-- an MCS-9 frame with ones in all bits of the block -/
def onesMcs9 : List Bool :=
  zeros 16 ++ [true] ++ ones 48 ++ withParity (lsb 5 0x04 ++ lsb 2 0) ++
  withParity ([true] ++ msb 6 20 ++ msb 3 6 ++ msb 7 77 ++ msb 3 4 ++ [false, false, false]) ++ ones 2 ++ ones 1181

theorem onesMcs9_ok : onesMcs9.length = 1280 ∧ IsCcuMcs9 onesMcs9
    ⟨0, false, .hdr1, 20, 0, .egprs 77 4 true true true, List.replicate 4 0xff ++ [0x40, 0xc0] ++ List.replicate 148 0xff ++ [0x03], 155, []⟩ := by
  refine ⟨by decide +kernel, ⟨by decide +kernel, by decide +kernel, ⟨by decide, by decide +kernel⟩, by decide +kernel, by decide +kernel,
    ⟨by decide, by decide +kernel⟩, ⟨6, rfl, by decide +kernel⟩,
    ⟨77, 4, true, true, true, rfl, by decide, by decide +kernel, by decide, by decide +kernel, by decide +kernel, ?_, ?_⟩,
    by decide +kernel, ⟨rfl, rfl⟩, ⟨⟨by decide +kernel, by decide +kernel⟩, rfl⟩⟩⟩
  · exact ⟨fun _ => ⟨rfl, by decide +kernel⟩, fun _ => rfl⟩
  · exact ⟨fun _ => ⟨rfl, by decide +kernel⟩, fun _ => rfl⟩

theorem replicate_get (f : List Byte) : ∀ (k j : Nat), j < k * f.length → (List.replicate k f).flatten[j]? = f[j % f.length]? := by
  intro k
  induction k with
  | zero => intro j h; simp at h
  | succ k ih =>
    intro j h
    rw [List.replicate_succ, List.flatten_cons]
    rcases Nat.lt_or_ge j f.length with q | q
    · rw [List.getElem?_append_left q, Nat.mod_eq_of_lt q]
    · rw [List.getElem?_append_right q, ih _ (by rw [Nat.add_mul, Nat.one_mul] at h; omega), ← Nat.mod_eq_sub_mod q]

/-- no 64 zeros in a row, and the last bit is one -/
def dense : Nat → List Byte → Bool
  | c, [] => c == 0
  | c, x :: xs => if x = 1 then dense 0 xs else decide (c < 63) && dense (c + 1) xs

/-- the next one comes before the run of zeros has 64 bits -/
theorem dense_next : ∀ (xs : List Byte) (c : Nat), c < 64 → dense c xs = true → (c = 0 ∧ xs = []) ∨ ∃ i, i + c < 64 ∧ i < xs.length ∧ xs[i]? = some 1 := by
  intro xs
  induction xs with
  | nil => intro c _ h; simp [dense] at h; exact .inl ⟨h, rfl⟩
  | cons x xs ih =>
    intro c hc h
    unfold dense at h
    split at h
    · rename_i hx; exact .inr ⟨0, by omega, by simp, by simp [hx]⟩
    · simp only [Bool.and_eq_true, decide_eq_true_eq] at h
      rcases ih (c + 1) (by omega) h.2 with ⟨q, -⟩ | ⟨i, i1, i2, i3⟩
      · omega
      · exact .inr ⟨i + 1, by omega, by simpa using i2, by simpa using i3⟩

theorem dense_mono : ∀ (xs : List Byte) (c d : Nat), d ≤ c → xs ≠ [] → dense c xs = true → dense d xs = true := by
  intro xs
  induction xs with
  | nil => intro _ _ _ h; exact absurd rfl h
  | cons x xs ih =>
    intro c d hd _ h
    unfold dense at h ⊢
    split
    · rename_i hx; rw [if_pos hx] at h; exact h
    · rename_i hx
      rw [if_neg hx] at h
      simp only [Bool.and_eq_true, decide_eq_true_eq] at h ⊢
      refine ⟨by omega, ih (c + 1) (d + 1) (by omega) ?_ h.2⟩
      rintro rfl
      simp [dense] at h

theorem dense_at : ∀ (xs : List Byte) (c : Nat), dense c xs = true → ∀ r < xs.length, ∃ i < 64, r + i < xs.length ∧ xs[r + i]? = some 1 := by
  intro xs
  induction xs with
  | nil => intro _ _ r h; simp at h
  | cons x xs ih =>
    intro c h r hr
    match r, hr with
    | 0, _ =>
      have h0 : dense 0 (x :: xs) = true := dense_mono _ c 0 (by omega) (by simp) h
      rcases dense_next _ 0 (by decide) h0 with ⟨-, q⟩ | ⟨i, i1, i2, i3⟩
      · cases q
      · exact ⟨i, by omega, by simpa using i2, by simpa using i3⟩
    | r + 1, hr =>
      have h' : ∃ c', dense c' xs = true := by
        unfold dense at h
        split at h
        · exact ⟨_, h⟩
        · simp only [Bool.and_eq_true] at h; exact ⟨_, h.2⟩
      obtain ⟨c', h'⟩ := h'
      obtain ⟨i, i1, i2, i3⟩ := ih c' h' r (by simpa using hr)
      have e : r + 1 + i = r + i + 1 := by omega
      exact ⟨i, i1, by simp; omega, by rw [e]; simpa using i3⟩

theorem onesMcs9_dense : ∀ r < 1280, ∃ i < 64, r + i < 1280 ∧ (ubs onesMcs9)[r + i]? = some 1 := by
  have hl : (ubs onesMcs9).length = 1280 := by rw [ubs_length]; exact onesMcs9_ok.1
  have h : dense 0 (ubs onesMcs9) = true := by decide +kernel
  rw [← hl]
  exact dense_at _ 0 h

/-- **C156 violated** (each frame is delivered, 64k, with the secondary pattern): as only the primary pattern is searched for, MCS-9 frames are not delivered, however many, before the first other frame -/
theorem C156_mcs9_first_violated (g : Nat → Nat → Byte) (s : St) (ha : Link64 g s) (n k : Nat) :
    ∃ s', rxUbits g s (List.replicate n 1 ++ (List.replicate k (ubs onesMcs9)).flatten) = .ok (s', []) := by
  have hl : (ubs onesMcs9).length = 1280 := by rw [ubs_length]; exact onesMcs9_ok.1
  apply no_zeros_nothing g s ha
  intro j hj
  rcases Nat.lt_or_ge j n with h | h
  · exact ⟨0, by decide, by rw [Nat.add_zero, List.getElem?_append_left (by simpa using h), List.getElem?_replicate_of_lt h]⟩
  · have hj' : j - n < k * 1280 := by
      simp [hl] at hj
      omega
    obtain ⟨i, i1, i2, i3⟩ := onesMcs9_dense ((j - n) % 1280) (Nat.mod_lt _ (by decide))
    refine ⟨i, i1, ?_⟩
    rw [List.getElem?_append_right (by simp; omega), List.length_replicate, replicate_get _ _ _ (by rw [hl]; omega), hl]
    have : (j + i - n) % 1280 = (j - n) % 1280 + i := by omega
    rw [this]
    exact i3

/-! ### the hypotheses are met -/

/-- a 16k link: a sync frame, a data frame, two data frames whose alignment bits are errored, a sync frame, after an idle line -/
example : ∃ s, alloc 6 = some s ∧ (∀ x ∈ [exSync16, exData16, ones 320, ones 320, exSync16], x.length = 320) ∧ Hdr16 exSync16 ∧
    NoThree (fun x => ¬ Hdr16 x) [exData16, ones 320, ones 320, exSync16] := by
  refine ⟨_, rfl, by decide +kernel, by unfold Hdr16; decide +kernel, ?_⟩
  have h1 : Hdr16 exData16 := by unfold Hdr16; decide +kernel
  have h2 : Hdr16 exSync16 := by unfold Hdr16; decide +kernel
  intro pre a b c post e ⟨q1, q2, q3⟩
  match pre, e with
  | [], e => injection e with e _; rw [← e] at q1; exact q1 h1
  | [_], e =>
    simp only [List.cons_append, List.nil_append, List.cons.injEq] at e
    rw [← e.2.2.2.1] at q3; exact q3 h2
  | _ :: _ :: _, e => have := congrArg List.length e; simp at this; omega

example : ∃ i j, Each Says16 [exSync16, exData16] [.sync i, .data j] := by
  have hl : exSync16.length = 320 := by decide +kernel
  have hl' : exData16.length = 320 := by decide +kernel
  rcases decode16_cases _ hl' with ⟨i, e, _⟩ | ⟨j, e, h⟩ | ⟨e, _, _⟩
  · have : dataWith (fun _ => true) (decode16 exData16) = true := by decide +kernel
    rw [e] at this; cases this
  · exact ⟨⟨1, false, true, 0x2ABCDE, 0x112233, 0x334455⟩, j, .cons (.sync ((C36_decode_sync _ hl _).1 (by decide +kernel))) (.cons (.data h) .nil)⟩
  · have : dataWith (fun _ => true) (decode16 exData16) = true := by decide +kernel
    rw [e] at this; cases this

/-- the 64k link can be set up, and there are frames of all three formats -/
example (g : Nat → Nat → Byte) : ∃ s, Link64 g s := by
  cases h0 : alloc 7 with
  | none => unfold alloc at h0; rw [pat_ids.2.1] at h0; cases h0
  | some s0 =>
    have N0 := new_alloc g h0 pat_ids.2.1
    obtain ⟨s, e, h⟩ := C20_no_fault g s0 N0.reach (.setSecondary 8 1) ⟨by decide, by decide, _, _, N0.prim, pat_ids.2.2, rfl⟩
    exact ⟨s, s0, e, h0, h⟩

/-- a sync frame CCU → PCU, 64k -/
def exSync64 : List Bool :=
  zeros 64 ++ [true] ++ (lsb 5 0x15 ++ lsb 2 1 ++ [true]) ++ [odd (lsb 5 0x15 ++ lsb 2 1 ++ [true])] ++ [false, true] ++ ones 94 ++
  msb 22 0x2ABCDE ++ ones 42 ++ msb 22 0x112233 ++ ones 42 ++ msb 22 0x334455 ++ ones 960

example : exSync64.length = 1280 ∧ IsCcuSync64 exSync64 ⟨1, false, true, 0x2ABCDE, 0x112233, 0x334455⟩ ∧ IsCcu64 exMcs9 ∧ IsCcu64 onesMcs9 ∧ Hdr64 exMcs1 := by
  have hl : exSync64.length = 1280 := by decide +kernel
  exact ⟨hl, (C37_decode_sync (zeros 1234) _ (by decide +kernel) hl _).1 (by decide +kernel), .mcs9 exMcs9_ok.2, .mcs9 onesMcs9_ok.2, by unfold Hdr64; decide +kernel⟩

end Verif.Chain
