import Verif.Props.TrauSync
import Verif.Props.TrauFrame
/-!
# C70: the alignment patterns of the synchroniser; C20: the assertions of its configuration functions
-/
namespace Verif.TrauSync
open Verif
open Verif.RaaPrime (bind_ok bind_err)
open Verif.Spec.Trau (syncHr8 syncLow8 sync67 sync74 wire frameBits minBits)
set_option maxRecDepth 10000

/-! ### specification -/

/-- `n` zero bits followed by a one -/
def zerosOne (n : Nat) : List (Nat × Bool) := (List.range n).map (fun i => (i, false)) ++ [(n, true)]

/-- the alignment bits of 16k TRAU frames (TS 48.060 4.2): 16 zeros, then a one in every 16th bit -/
def sync16 : List (Nat × Bool) :=
  (List.range 16).map (fun i => (i, false)) ++ (List.range 19).map fun k => (16 + 16 * k, true)

/-- the alignment bits of a V.110 frame (ITU-T V.110 table 2): the first octet is zero, the others start with a one -/
def syncV110 : List (Nat × Bool) :=
  (List.range 8).map (fun i => (i, false)) ++ (List.range 9).map fun k => (8 + 8 * k, true)

/-- frame alignment signal 3e375096c1c8af69 -/
def syncFa : List (Nat × Bool) :=
  (List.range 64).map fun i => (i, (0x3e375096c1c8af69 : Nat).testBit (63 - i))

/-- frame length in bits and alignment bits by pattern (enum osmo_trau_sync_pat_id) -/
def patSpec : List (Nat × List (Nat × Bool)) :=
  [(320, sync16), (160, syncHr8), (160, syncLow8), (160, sync67), (160, sync74), (80, syncV110),
   (320, zerosOne 16), (1280, zerosOne 64), (1280, zerosOne 16), (64, syncFa)]

/-- a bit as an (unpacked) octet -/
def ub (x : Bool) : Byte := if x then 1 else 0

/-! ### C70 -/

/-- the bits selected by the mask, numbered from `i` on -/
def sel : Nat → List Byte → List Byte → List (Nat × Byte)
  | _, [], _ => []
  | _, _, [] => []
  | i, m :: ms, b :: bs => if m = 0 then sel (i + 1) ms bs else (i, b) :: sel (i + 1) ms bs

theorem mem_sel (x : Nat × Byte) : ∀ (ms bs : List Byte) (k : Nat), x ∈ sel k ms bs ↔
    ∃ i m, ms[i]? = some m ∧ m ≠ 0 ∧ bs[i]? = some x.2 ∧ x.1 = k + i
  | [], bs, k => by simp [sel]
  | m :: ms, [], k => by simp [sel]
  | m :: ms, b :: bs, k => by
    have ih := mem_sel x ms bs (k + 1)
    have key : (∃ i m', (m :: ms)[i]? = some m' ∧ m' ≠ 0 ∧ (b :: bs)[i]? = some x.2 ∧ x.1 = k + i) ↔
        (m ≠ 0 ∧ b = x.2 ∧ x.1 = k) ∨ x ∈ sel (k + 1) ms bs := by
      rw [ih]
      constructor
      · rintro ⟨i, m', h1, h2, h3, h4⟩
        cases i with
        | zero => simp at h1 h3 h4; subst h1; exact .inl ⟨h2, h3, h4⟩
        | succ i => simp at h1 h3; exact .inr ⟨i, m', h1, h2, h3, by omega⟩
      · rintro (⟨h1, h2, h3⟩ | ⟨i, m', h1, h2, h3, h4⟩)
        · exact ⟨0, m, rfl, h1, by simp [h2], by omega⟩
        · exact ⟨i + 1, m', by simpa using h1, h2, by simpa using h3, by omega⟩
    rw [key, sel]
    split
    · rename_i hm; simp [hm]
    · rename_i hm
      rw [List.mem_cons]
      have : x = (k, b) ↔ (m ≠ 0 ∧ b = x.2 ∧ x.1 = k) := by
        obtain ⟨x1, x2⟩ := x
        constructor
        · intro h; cases h; exact ⟨hm, rfl, rfl⟩
        · rintro ⟨_, h1, h2⟩; simp at h1 h2; rw [h1, h2]
      rw [this]

theorem matches_selected (p : Pat) (hp : p.OK) (w : List Byte) : Matches p w ↔ ∀ x ∈ sel 0 p.mask p.bits, w[x.1]? = some x.2 := by
  constructor
  · intro h x hx
    obtain ⟨i, m, h1, h2, h3, h4⟩ := (mem_sel _ _ _ _).1 hx
    have hi : i < p.mask.length := (List.getElem?_eq_some_iff.1 h1).1
    rw [h4, Nat.zero_add, h i (by rw [← hp.mask]; exact hi) (by rw [h1]; simpa using h2), h3]
  · intro h i hi hm
    have h1 : i < p.mask.length := by rw [hp.mask]; exact hi
    have h2 : i < p.bits.length := by rw [hp.bits]; exact hi
    rw [List.getElem?_eq_getElem h2]
    exact h (i, p.bits[i]) ((mem_sel _ _ _ _).2 ⟨i, p.mask[i], List.getElem?_eq_getElem h1,
      by rw [List.getElem?_eq_getElem h1] at hm; simpa using hm, List.getElem?_eq_getElem h2, by simp⟩)

theorem spec_length : syncPatterns.length = patSpec.length := by decide +kernel

theorem spec_selected : (syncPatterns.map fun p => (p.byteLen * 8, sel 0 p.mask p.bits)) =
    patSpec.map fun q => (q.1, q.2.map fun x => (x.1, ub x.2)) := by
  decide +kernel

/-- **C70** Each pattern of the synchroniser has the frame length of the standard, and a bit string matches it if and only if
it shows the alignment bits of the standard: the mask leaves out no alignment bit and selects no other bit. -/
theorem C70_patterns (i : Nat) (p : Pat) (hp : syncPatterns[i]? = some p) :
    ∃ n l, patSpec[i]? = some (n, l) ∧ p.nbits = n ∧
      ∀ w : List Byte, Matches p w ↔ ∀ x ∈ l, w[x.1]? = some (ub x.2) := by
  obtain ⟨hi, rfl⟩ := List.getElem?_eq_some_iff.1 hp
  have hi' : i < patSpec.length := spec_length ▸ hi
  have h := congrArg (fun l => l[i]?) spec_selected
  simp only [List.getElem?_map, List.getElem?_eq_getElem hi, List.getElem?_eq_getElem hi', Option.map_some] at h
  obtain ⟨h2, h1⟩ := Prod.mk.inj (Option.some.inj h)
  refine ⟨_, _, List.getElem?_eq_getElem hi', h2, fun w => ?_⟩
  rw [matches_selected _ (table_ok _ (List.getElem_mem hi)), h1]
  exact List.forall_mem_map

/-- every pattern number below 10 is in the table, no other -/
theorem C70_table (i : Nat) : (alloc i).isSome = decide (i < 10) := by
  unfold alloc
  rcases Decidable.em (i < 10) with h | h
  · have : syncPatterns[i]? = some syncPatterns[i] := List.getElem?_eq_getElem (by rw [spec_length]; exact h)
    rw [this]
    simp [h]
  · have : syncPatterns[i]? = none := List.getElem?_eq_none (by rw [spec_length]; exact Nat.not_lt.1 h)
    rw [this]
    simp [h]

/-! ### the encoder emits the alignment bits -/
open Verif.Trau Verif.Spec.Trau

/-- the pattern used for a frame type -/
def patFor : FT → Nat
  | .speech8 | .data8 | .oam8 => 1
  | .amrLow8 => 2
  | .amr67 => 3
  | .amr74 => 4
  | _ => 0

/-- the frame types whose frames the synchroniser can follow -/
def followed : List FT :=
  [.fr, .efr, .hr, .amr, .oam, .idle, .data, .dataHr, .d145, .speech8, .amrLow8, .amr74, .data8, .oam8]

theorem bits_sync (f : Frame) (hf : f.WF) (ht : f.type ∈ followed) (b : List Bool)
    (hb : b.length = frameBits f.type) :
    ∃ e, bitsFor b f = .ok e ∧ ∀ x ∈ (patSpec.getD (patFor f.type) (0, [])).2, e[x.1]? = some x.2 := by
  suffices h : (do let e ← bitsFor b f; .ok ((patSpec.getD (patFor f.type) (0, [])).2.map fun x => e[x.1]?)) =
      (.ok ((patSpec.getD (patFor f.type) (0, [])).2.map fun x => some x.2) : M _) by
    cases he : bitsFor b f with
    | error x => rw [he] at h; cases h
    | ok e =>
      rw [he] at h
      refine ⟨e, rfl, fun x hx => ?_⟩
      have h := Except.ok.inj h
      exact (List.map_inj_left.1 h) x hx
  obtain ⟨ty, dir, ta, c, d, t, s, m, u, crc, xc, rfl⟩ := exists_SF2 hf
  clear hf
  replace ht : ty ∈ followed := ht
  replace hb : b.length = frameBits ty := hb
  obtain ⟨b, rfl⟩ := exists_L' hb
  clear hb
  simp only [followed, List.mem_cons, List.not_mem_nil, or_false] at ht
  rcases ht with rfl | rfl | rfl | rfl | rfl | rfl | rfl | rfl | rfl | rfl | rfl | rfl | rfl | rfl <;> cases dir <;>
    (show _ = _; kernel_rfl)

/-- **C70** Every frame the encoder emits, of any type but extended data and 8k AMR 6.7, matches the pattern for its type. -/
theorem C70_encoder (f : Frame) (b : List Bool) (hf : f.WF) (ht : f.type ∈ followed)
    (hb : minBits f.type ≤ b.length) (hta : TaOk f) :
    ∃ rc e p, encode b f = .ok (rc, e) ∧ syncPatterns[patFor f.type]? = some p ∧ p.nbits = frameBits f.type ∧
      Matches p ((e.take (frameBits f.type)).map ub) := by
  have hm : f.type ∈ allTypes ∧ frameBits f.type ≤ minBits f.type ∧ patFor f.type < 10 ∧
      (patSpec.getD (patFor f.type) (0, [])).1 = frameBits f.type := by
    revert ht; cases f.type <;> decide
  obtain ⟨e0, h1, h2⟩ := bits_sync f hf ht (b.take (frameBits f.type)) (by rw [List.length_take]; omega)
  obtain ⟨hl, n, e, h3, _, h4, _⟩ := encode_of f b (frameBits f.type) e0 hm.1 hb hta (by omega) (Nat.le_refl _) h1
  have hi : patFor f.type < syncPatterns.length := by rw [spec_length]; exact hm.2.2.1
  obtain ⟨n', l, g1, g2, g3⟩ := C70_patterns (patFor f.type) _ (List.getElem?_eq_getElem hi)
  rw [List.getD_eq_getElem?_getD, g1] at h2
  have hn' := hm.2.2.2
  rw [List.getD_eq_getElem?_getD, g1] at hn'
  refine ⟨_, e, _, h3, List.getElem?_eq_getElem hi, g2.trans hn', (g3 _).2 fun x hx => ?_⟩
  rw [h4, List.take_of_length_le (by omega), List.getElem?_map, h2 x hx]
  rfl

/-- the hypotheses are met, e.g., by an idle frame -/
example : ∃ (f : Frame) (b : List Bool), f.WF ∧ f.type ∈ followed ∧ minBits f.type ≤ b.length ∧ TaOk f :=
  ⟨idleFrame, List.replicate 640 false, ⟨rfl, rfl, rfl, rfl, rfl, rfl, rfl⟩, by decide, by decide, by unfold TaOk; decide⟩

/-- **C70** does not extend to extended data (TS 48.060: no alignment bits behind the first 17): with all data bits zero such
a frame does not match the pattern for 16k frames, so a stream of them is never aligned to. -/
theorem C70_edata_violated : ∃ f : Frame, f.WF ∧ f.type = .edata ∧ ∃ rc e p, encode (List.replicate 320 false) f = .ok (rc, e) ∧
    syncPatterns[0]? = some p ∧ ¬ Matches p ((e.take 320).map ub) := by
  refine ⟨{ idleFrame with type := .edata, d := List.replicate 288 false }, ⟨rfl, rfl, rfl, rfl, rfl, rfl, rfl⟩, rfl, ?_⟩
  have h := C66_wire_layout { idleFrame with type := .edata, d := List.replicate 288 false } (List.replicate 320 false)
    ⟨rfl, rfl, rfl, rfl, rfl, rfl, rfl⟩ (by decide) (by decide) (by unfold TaOk; decide)
  obtain ⟨rc, e, h1, _, _, _, h2, _⟩ := h
  refine ⟨rc, e, _, h1, rfl, ?_⟩
  replace h2 : e.take 320 = _ := h2
  rw [h2]
  decide +kernel

/-! ### C20: assertions -/

/-- **C20** The documented conditions of osmo_trau_sync_set_secondary_pat() are enforced in every state: index 0, an index
above 7 or a pattern of different length fires an assertion. -/
theorem C20_asserts (g : Nat → Nat → Byte) (s : St) (h : Reach g s) (i j : Nat)
    (hbad : j = 0 ∨ 8 ≤ j ∨ ∃ p q, s.pats[0]? = some (some p) ∧ syncPatterns[i]? = some q ∧ q.byteLen ≠ p.byteLen) :
    setSecondary g s i j = .error .assert := by
  have hi := h.inv
  obtain ⟨p0, ps, hps⟩ := hi.prim
  have hl := hi.pats
  unfold setSecondary
  rcases Decidable.em (0 < j) with hj | hj
  · rcases Decidable.em (j < 8) with hj8 | hj8
    · rcases hbad with hb | hb | ⟨p, q, hp, hq, hne⟩
      · omega
      · omega
      · have hp0 : p0 = p := by rw [hps] at hp; simpa using hp
        have h1 : patAt s 0 = .ok p := by unfold patAt; rw [hps, hp0]; rfl
        have h2 : rd syncPatterns i = .ok q := by simp [rd, hq]
        simp only [cassert, hj, hl, hj8, decide_true, if_true, bind_ok, h1, h2]
        rw [if_neg (by simpa using fun h => hne h.symm)]
        rfl
    · simp only [cassert, hj, hl, decide_true, if_true, bind_ok]
      rw [if_neg (by simpa using Nat.not_lt.1 hj8)]
      rfl
  · simp only [cassert]
    rw [if_neg (by simpa using hj)]
    rfl

end Verif.TrauSync
