import Verif.Proof.TrauSym
import Verif.Spec.TrauFrame
/-!
# C29, C64, C69: classification of received frames, reads of the decoders
-/
namespace Verif.Trau
open Verif Verif.Spec.Trau
open Verif.OldTrau (memcpy getBits)
open Verif.RaaPrime (bind_ok bind_err)
set_option maxRecDepth 10000

theorem DecSafe.lift {dec : Frame → List Bool → M Frame} {n : Nat} (h : DecSafe dec n)
    (hl : ∀ f, RLocal (dec f)) {f : Frame} {b : List Bool} (hf : f.WF) (hb : n ≤ b.length) :
    ∃ f', dec f b = .ok f' ∧ f'.type = f.type ∧ f'.dir = f.dir ∧ f'.ta = f.ta ∧ f'.WF := by
  obtain ⟨f', h1, h2⟩ := h f (b.take n) hf (by simp; omega)
  exact ⟨f', by have := hl f _ (b.drop n) _ h1; rwa [List.take_append_drop] at this, h2⟩

theorem WF.start {f : Frame} (h : f.WF) (dir : Dir) (ty : FT) : (f.start dir ty).WF :=
  ⟨h.c, h.d, h.t, h.s, h.m, h.crc, h.xc⟩

theorem RLocal.getBits' : ∀ n off acc, RLocal (fun b => getBits b off n acc)
  | 0, _, _ => fun _ _ _ h => h
  | n + 1, off, acc => by
    have : (fun b => getBits b off (n + 1) acc) =
        fun b => (Verif.rd b off) >>= fun x => getBits b (off + 1) n (2 * acc + x.toNat) := by
      funext b; rfl
    rw [this]
    exact RLocal.bind (RLocal.rd off) fun x => RLocal.getBits' n _ _

private theorem getBits_code (b : List Bool) (off : Nat) (h : off + 5 ≤ b.length) :
    ∃ x0 x1 x2 x3 x4 : Bool, (b.drop off).take 5 = [x0, x1, x2, x3, x4] ∧
      getBits b off 5 0 = .ok (16 * x0.toNat + 8 * x1.toNat + 4 * x2.toNat + 2 * x3.toNat + x4.toNat) := by
  refine ⟨b[off], b[off + 1], b[off + 2], b[off + 3], b[off + 4], ?_, ?_⟩
  · rw [List.drop_eq_getElem_cons (by omega), List.drop_eq_getElem_cons (by omega),
      List.drop_eq_getElem_cons (by omega), List.drop_eq_getElem_cons (by omega),
      List.drop_eq_getElem_cons (by omega)]
    rfl
  · simp only [getBits]
    rw [rd_ok (by omega), rd_ok (i := off + 1) (by omega), rd_ok (i := off + 1 + 1) (by omega),
      rd_ok (i := off + 1 + 1 + 1) (by omega), rd_ok (i := off + 1 + 1 + 1 + 1) (by omega)]
    simp only [bind_ok, Nat.add_assoc, Nat.reduceAdd]
    congr 1
    omega

theorem RLocal.ret0 {g : List Bool → M Frame} (h : RLocal g) : RLocal (fun b => ret0 (g b)) :=
  RLocal.bind h fun _ => RLocal.const _

theorem RLocal.checkBits : ∀ l, RLocal (fun b => checkBits b l)
  | [] => RLocal.const _
  | (i, v) :: l => by
    refine RLocal.bind (h := fun x b => if x = v then Verif.Trau.checkBits b l else .ok false)
      (RLocal.rd i) fun x => ?_
    by_cases h : x = v
    · simp only [if_pos h]; exact RLocal.checkBits l
    · simp only [if_neg h]; exact RLocal.const _

theorem RLocal.ite {α : Type} {p : Prop} [Decidable p] {g h : List Bool → M α} (hg : RLocal g) (hh : RLocal h) :
    RLocal (fun b => if p then g b else h b) := by
  by_cases hp : p
  · simp only [if_pos hp]; exact hg
  · simp only [if_neg hp]; exact hh

/-- the 16k decoder's result does not depend on what follows the bits it has read -/
theorem rlocal_decode16k (f : Frame) (dir : Dir) : RLocal (fun b => decode16k f b dir) := by
  unfold decode16k
  refine RLocal.bind (RLocal.getBits' 5 17 0) fun c => ?_
  repeat' (first | apply RLocal.ite | apply RLocal.ret0 | exact RLocal.const _)
  · exact rlocal_fr _
  · exact rlocal_fr _
  · exact rlocal_fr _
  · exact rlocal_amr _
  · exact rlocal_oam _
  · exact rlocal_data _
  · exact rlocal_hr _
  · exact rlocal_dataHr _
  · exact rlocal_edata _
  · exact rlocal_data _

/-- the 8k decoder's result does not depend on what follows the bits it has read -/
theorem rlocal_decode8k (f : Frame) (dir : Dir) : RLocal (fun b => decode8k f b dir) := by
  unfold decode8k isHr isAmrLow isAmr67 isAmr74
  refine RLocal.bind (RLocal.checkBits _) fun hr => RLocal.ite ?_ ?_
  · refine RLocal.bind (RLocal.getBits' 5 9 0) fun c => ?_
    cases dir
    · repeat' (first | apply RLocal.ite | apply RLocal.ret0 | exact RLocal.const _)
      · exact rlocal_hr8 _
      · exact rlocal_data8 _
      · exact rlocal_oam8 _
    · repeat' (first | apply RLocal.ite | apply RLocal.ret0 | exact RLocal.const _)
      · exact rlocal_hr8 _
      · exact rlocal_data8 _
      · exact rlocal_oam8 _
  · refine RLocal.bind (RLocal.checkBits _) fun low => RLocal.ite (RLocal.ret0 (rlocal_low8 _)) ?_
    refine RLocal.bind (RLocal.checkBits _) fun low => RLocal.ite (RLocal.ret0 (rlocal_67 _)) ?_
    exact RLocal.bind (RLocal.checkBits _) fun low => RLocal.ite (RLocal.ret0 (rlocal_74 _)) (RLocal.const _)

/-- no two frame types share a code: the table of the standard is unambiguous -/
theorem code_unique : ∀ ty ∈ types16, ∀ ty' ∈ types16, ∀ d d' : Dir, code ty d = code ty' d' → ty = ty' := by
  have : ∀ ty ∈ types16, ∀ ty' ∈ types16, ∀ d ∈ [Dir.ul, .dl], ∀ d' ∈ [Dir.ul, .dl],
      code ty d = code ty' d' → ty = ty' := by decide
  intro ty h ty' h' d d'
  exact this ty h ty' h' d (by cases d <;> simp) d' (by cases d' <;> simp)

/-- **C29** Classification of 16k frames: for any received bits, the decoder neither faults nor misses a frame.
If C1..C5 (bits 17..21) are the code of a frame type (for either direction), it returns 0 and exactly that
type; for any other code it returns -EINVAL and the type "none", and does not change the contents.
(A full frame must be readable, and one bit more if the frame claims to be O&M: see C64.) -/
theorem C29_classify (f : Frame) (b : List Bool) (dir : Dir) (hf : f.WF) (hb : 320 ≤ b.length)
    (ho : (b.drop 17).take 5 ∈ [code .oam .ul, code .oam .dl] → 321 ≤ b.length) :
    ∃ rc f', decode16k f b dir = .ok (rc, f') ∧ f'.dir = dir ∧ f'.ta = 0 ∧ f'.WF ∧
      ((rc = 0 ∧ f'.type ∈ types16 ∧ ∃ d, code f'.type d = (b.drop 17).take 5) ∨
       (rc = -EINVAL ∧ f' = { f with type := .none, dir := dir, ta := 0 } ∧
         ∀ ty ∈ types16, ∀ d, code ty d ≠ (b.drop 17).take 5)) := by
  obtain ⟨x0, x1, x2, x3, x4, h1, h2⟩ := getBits_code b 17 (by omega)
  unfold decode16k
  rw [h2, bind_ok]
  have step : ∀ (dec : Frame → List Bool → M Frame) (n : Nat) (ty : FT) (d : Dir), DecSafe dec n →
      (∀ f, RLocal (dec f)) → n ≤ b.length → ty ∈ types16 → code ty d = (b.drop 17).take 5 →
      ∃ rc f', ret0 (dec (f.start dir ty) b) = .ok (rc, f') ∧ f'.dir = dir ∧ f'.ta = 0 ∧ f'.WF ∧
      ((rc = 0 ∧ f'.type ∈ types16 ∧ ∃ d, code f'.type d = (b.drop 17).take 5) ∨
       (rc = -EINVAL ∧ f' = { f with type := .none, dir := dir, ta := 0 } ∧
         ∀ ty ∈ types16, ∀ d, code ty d ≠ (b.drop 17).take 5)) := by
    intro dec n ty d hd hl hn hty hc
    obtain ⟨f', e, e1, e2, e3, e4⟩ := hd.lift hl (WF.start hf dir ty) hn
    refine ⟨0, f', by rw [e]; rfl, e2, e3, e4, Or.inl ⟨rfl, ?_, d, ?_⟩⟩
    · rw [e1]; exact hty
    · rw [e1]; exact hc
  rw [h1] at step ho ⊢
  have none' : (∀ ty ∈ types16, ∀ d, code ty d ≠ [x0, x1, x2, x3, x4]) →
      ∃ rc f', (.ok (-EINVAL, f.start dir .none) : M (Int × Frame)) = .ok (rc, f') ∧ f'.dir = dir ∧ f'.ta = 0 ∧
        f'.WF ∧ ((rc = 0 ∧ f'.type ∈ types16 ∧ ∃ d, code f'.type d = [x0, x1, x2, x3, x4]) ∨
       (rc = -EINVAL ∧ f' = { f with type := .none, dir := dir, ta := 0 } ∧
         ∀ ty ∈ types16, ∀ d, code ty d ≠ [x0, x1, x2, x3, x4])) := fun h =>
    ⟨-EINVAL, _, rfl, rfl, rfl, WF.start hf _ _, Or.inr ⟨rfl, rfl, h⟩⟩
  have ne : ∀ x : List Bool, (∀ ty ∈ types16, ∀ d ∈ [Dir.ul, .dl], code ty d ≠ x) →
      ∀ ty ∈ types16, ∀ d, code ty d ≠ x := by
    intro x h ty ht d
    exact h ty ht d (by cases d <;> simp)
  cases x0 <;> cases x1 <;> cases x2 <;> cases x3 <;> cases x4 <;>
    simp only [Bool.toNat_false, Bool.toNat_true] <;>
    first
    | exact none' (ne _ (by decide))
    | exact step decode16Fr 320 .fr .ul dsafe_fr rlocal_fr hb (by decide) (by decide)
    | exact step decode16Fr 320 .fr .dl dsafe_fr rlocal_fr hb (by decide) (by decide)
    | exact step decode16Fr 320 .efr .dl dsafe_fr rlocal_fr hb (by decide) (by decide)
    | exact step decode16Fr 320 .idle .ul dsafe_fr rlocal_fr hb (by decide) (by decide)
    | exact step decode16Fr 320 .idle .dl dsafe_fr rlocal_fr hb (by decide) (by decide)
    | exact step decode16Hr 320 .hr .ul dsafe_hr rlocal_hr hb (by decide) (by decide)
    | exact step decode16Hr 320 .hr .dl dsafe_hr rlocal_hr hb (by decide) (by decide)
    | exact step decode16Amr 320 .amr .dl dsafe_amr rlocal_amr hb (by decide) (by decide)
    | exact step decode16Oam 321 .oam .ul dsafe_oam rlocal_oam (ho (by decide)) (by decide) (by decide)
    | exact step decode16Oam 321 .oam .dl dsafe_oam rlocal_oam (ho (by decide)) (by decide) (by decide)
    | exact step decode16Data 320 .data .ul dsafe_data rlocal_data hb (by decide) (by decide)
    | exact step decode16Data 320 .data .dl dsafe_data rlocal_data hb (by decide) (by decide)
    | exact step decode16Data 320 .d145 .dl dsafe_data rlocal_data hb (by decide) (by decide)
    | exact step decode16DataHr 320 .dataHr .ul dsafe_dataHr rlocal_dataHr hb (by decide) (by decide)
    | exact step decode16DataHr 320 .dataHr .dl dsafe_dataHr rlocal_dataHr hb (by decide) (by decide)
    | exact step decode16Edata 320 .edata .ul dsafe_edata rlocal_edata hb (by decide) (by decide)

/-! ### 8k -/

theorem shows_iff {b : List Bool} {l : List (Nat × Bool)} (h : ∀ p ∈ l, p.1 < b.length) :
    (l.all fun p => b.getD p.1 false == p.2) = true ↔ Shows b l := by
  simp only [List.all_eq_true, Shows, beq_iff_eq, List.getD_eq_getElem?_getD]
  constructor
  · intro h1 p hp
    have := h1 p hp
    rw [List.getElem?_eq_getElem (h p hp)] at this ⊢
    simpa using this
  · intro h1 p hp
    rw [h1 p hp]; rfl

theorem checkBits_shows {b : List Bool} {l : List (Nat × Bool)} (h : ∀ p ∈ l, p.1 < b.length) :
    (checkBits b l = .ok true ∧ Shows b l) ∨ (checkBits b l = .ok false ∧ ¬ Shows b l) := by
  rw [checkBits_eq b l h]
  by_cases hs : Shows b l
  · exact Or.inl ⟨by rw [(shows_iff h).2 hs], hs⟩
  · refine Or.inr ⟨?_, hs⟩
    cases hv : l.all fun p => b.getD p.1 false == p.2
    · rfl
    · exact absurd ((shows_iff h).1 hv) hs

/-- the rows of the recognition table exclude one another: a frame shows at most one of them -/
theorem rows8_unique (dir : Dir) (b : List Bool) : ∀ r ∈ rows8 dir, ∀ r' ∈ rows8 dir, Shows b r.1 → Shows b r'.1 →
    r = r' := by
  have key : ∀ dir ∈ [Dir.ul, .dl], ∀ r ∈ rows8 dir, ∀ r' ∈ rows8 dir,
      r = r' ∨ ∃ p ∈ r.1, ∃ q ∈ r'.1, p.1 = q.1 ∧ p.2 ≠ q.2 := by decide +kernel
  intro r hr r' hr' h h'
  rcases key dir (by cases dir <;> simp) r hr r' hr' with e | ⟨p, hp, q, hq, e, ne⟩
  · exact e
  · have a := h p hp
    have b := h' q hq
    rw [e, b] at a
    exact absurd (Option.some.inj a).symm ne

theorem ret0_def (r : M Frame) : ret0 r = (r >>= fun f => .ok (0, f)) := rfl
attribute [local irreducible] ret0

/-- **C69** Classification of 8k frames: for any received bits the decoder neither faults nor mistakes the type.
It returns 0 and the type of the (only) row of the recognition table that the frame shows; if the frame shows
none of them it returns -EINVAL and the type "none" and does not change the contents.  (A full frame must be
readable, and eight bits more if the frame claims to be AMR 6.7: see C64.) -/
theorem C69_classify8 (f : Frame) (b : List Bool) (dir : Dir) (hf : f.WF) (hb : 160 ≤ b.length)
    (ho : Shows b sync67 → 168 ≤ b.length) :
    ∃ rc f', decode8k f b dir = .ok (rc, f') ∧ f'.dir = dir ∧ f'.ta = 0 ∧ f'.WF ∧
      ((rc = 0 ∧ ∃ p, (p, f'.type) ∈ rows8 dir ∧ Shows b p) ∨
       (rc = -EINVAL ∧ f' = { f with type := .none, dir := dir, ta := 0 } ∧ ∀ r ∈ rows8 dir, ¬ Shows b r.1)) := by
  have step : ∀ (dec : Frame → List Bool → M Frame) (n : Nat) (ty : FT) (p : List (Nat × Bool)), DecSafe dec n →
      (∀ f, RLocal (dec f)) → n ≤ b.length → (p, ty) ∈ rows8 dir → Shows b p →
      ∃ rc f', ret0 (dec (f.start dir ty) b) = .ok (rc, f') ∧ f'.dir = dir ∧ f'.ta = 0 ∧ f'.WF ∧
      ((rc = 0 ∧ ∃ p, (p, f'.type) ∈ rows8 dir ∧ Shows b p) ∨
       (rc = -EINVAL ∧ f' = { f with type := .none, dir := dir, ta := 0 } ∧ ∀ r ∈ rows8 dir, ¬ Shows b r.1)) := by
    intro dec n ty p hd hl hn hty hc
    obtain ⟨f', e, e1, e2, e3, e4⟩ := hd.lift hl (WF.start hf dir ty) hn
    refine ⟨0, f', by rw [e, ret0_def]; rfl, e2, e3, e4, Or.inl ⟨rfl, p, ?_, hc⟩⟩
    rw [e1]; exact hty
  have none' : (∀ r ∈ rows8 dir, ¬ Shows b r.1) →
      ∃ rc f', (.ok (-EINVAL, f.start dir .none) : M (Int × Frame)) = .ok (rc, f') ∧ f'.dir = dir ∧ f'.ta = 0 ∧
        f'.WF ∧ ((rc = 0 ∧ ∃ p, (p, f'.type) ∈ rows8 dir ∧ Shows b p) ∨
       (rc = -EINVAL ∧ f' = { f with type := .none, dir := dir, ta := 0 } ∧ ∀ r ∈ rows8 dir, ¬ Shows b r.1)) :=
    fun h => ⟨-EINVAL, _, rfl, rfl, rfl, WF.start hf _ _, Or.inr ⟨rfl, rfl, h⟩⟩
  have bnd : ∀ l ∈ [syncHr8, syncLow8, sync67, sync74], ∀ p ∈ l, p.1 < b.length := by
    have : ∀ l ∈ [syncHr8, syncLow8, sync67, sync74], ∀ p ∈ l, p.1 < 160 := by decide
    intro l hl p hp
    have := this l hl p hp
    omega
  unfold decode8k
  have eHr : isHr b = checkBits b syncHr8 := rfl
  have eLow : isAmrLow b = checkBits b syncLow8 := rfl
  have e67 : isAmr67 b = checkBits b sync67 := rfl
  have e74 : isAmr74 b = checkBits b sync74 := rfl
  rw [eHr, eLow, e67, e74]
  rcases checkBits_shows (bnd syncHr8 (by decide)) with ⟨hv, hs⟩ | ⟨hv, hs⟩
  · rw [hv, bind_ok, if_pos rfl]
    obtain ⟨x0, x1, x2, x3, x4, h1, h2⟩ := getBits_code b 9 (by omega)
    rw [h2, bind_ok]
    have key : ∀ r ∈ [(syncLow8, FT.amrLow8), (sync67, .amr67), (sync74, .amr74)], ¬ Shows b r.1 := by
      have hx : ∀ r ∈ [(syncLow8, FT.amrLow8), (sync67, .amr67), (sync74, .amr74)],
          ∃ p ∈ syncHr8, ∃ q ∈ r.1, p.1 = q.1 ∧ p.2 ≠ q.2 := by decide +kernel
      intro r hr h
      obtain ⟨p, hp, q, hq, e, ne⟩ := hx r hr
      have a := hs p hp
      have b := h q hq
      rw [e, b] at a
      exact ne (Option.some.inj a).symm
    have g : ∀ k < 5, b[9 + k]? = [x0, x1, x2, x3, x4][k]? := by
      intro k hk
      rw [← h1, List.getElem?_take, if_pos hk, List.getElem?_drop]
    have g0 : b[9]? = some x0 := g 0 (by omega)
    have g1 : b[10]? = some x1 := g 1 (by omega)
    have g2 : b[11]? = some x2 := g 2 (by omega)
    have g3 : b[12]? = some x3 := g 3 (by omega)
    have g4 : b[13]? = some x4 := g 4 (by omega)
    have at5 : ∀ y0 y1 y2 y3 y4, Shows b (syncHr8 ++ bitsAt 9 [y0, y1, y2, y3, y4]) ↔
        (x0 = y0 ∧ x1 = y1 ∧ x2 = y2 ∧ x3 = y3 ∧ x4 = y4) := by
      intro y0 y1 y2 y3 y4
      show (∀ p ∈ syncHr8 ++ [(9, y0), (10, y1), (11, y2), (12, y3), (13, y4)], b[p.1]? = some p.2) ↔ _
      have hs' : ∀ p ∈ syncHr8, b[p.1]? = some p.2 := hs
      simp only [List.forall_mem_append, List.forall_mem_cons, g0, g1, g2, g3, g4, Option.some.injEq]
      constructor
      · rintro ⟨_, a, b, c, d, e, _⟩; exact ⟨a, b, c, d, e⟩
      · rintro ⟨a, b, c, d, e⟩; exact ⟨hs', a, b, c, d, e, by simp⟩
    have at3 : ∀ y0 y1 y2, Shows b (syncHr8 ++ bitsAt 9 [y0, y1, y2]) ↔ (x0 = y0 ∧ x1 = y1 ∧ x2 = y2) := by
      intro y0 y1 y2
      show (∀ p ∈ syncHr8 ++ [(9, y0), (10, y1), (11, y2)], b[p.1]? = some p.2) ↔ _
      have hs' : ∀ p ∈ syncHr8, b[p.1]? = some p.2 := hs
      simp only [List.forall_mem_append, List.forall_mem_cons, g0, g1, g2, Option.some.injEq]
      constructor
      · rintro ⟨_, a, b, c, _⟩; exact ⟨a, b, c⟩
      · rintro ⟨a, b, c⟩; exact ⟨hs', a, b, c, by simp⟩
    have key1 := key _ (List.mem_cons_self ..)
    have key2 := key (sync67, .amr67) (by decide)
    have key3 := key (sync74, .amr74) (by decide)
    clear h2 h1 g g0 g1 g2 g3 g4 key ho eHr eLow e67 e74 hv
    have dec5 : ∀ (x0 x1 x2 x3 x4 : Bool),
        (16 * x0.toNat + 8 * x1.toNat + 4 * x2.toNat + 2 * x3.toNat + x4.toNat = 0x02 ↔
          (x0 = false ∧ x1 = false ∧ x2 = false ∧ x3 = true ∧ x4 = false)) ∧
        (16 * x0.toNat + 8 * x1.toNat + 4 * x2.toNat + 2 * x3.toNat + x4.toNat = 0x07 ↔
          (x0 = false ∧ x1 = false ∧ x2 = true ∧ x3 = true ∧ x4 = true)) ∧
        (16 * x0.toNat + 8 * x1.toNat + 4 * x2.toNat + 2 * x3.toNat + x4.toNat = 0x0b ↔
          (x0 = false ∧ x1 = true ∧ x2 = false ∧ x3 = true ∧ x4 = true)) := by decide
    have dec3 : ∀ (x0 x1 x2 x3 x4 : Bool),
        ((16 * x0.toNat + 8 * x1.toNat + 4 * x2.toNat + 2 * x3.toNat + x4.toNat) / 4 = 0 ↔
          (x0 = false ∧ x1 = false ∧ x2 = false)) ∧
        ((16 * x0.toNat + 8 * x1.toNat + 4 * x2.toNat + 2 * x3.toNat + x4.toNat) / 4 = 1 ↔
          (x0 = false ∧ x1 = false ∧ x2 = true)) ∧
        ((16 * x0.toNat + 8 * x1.toNat + 4 * x2.toNat + 2 * x3.toNat + x4.toNat) / 4 = 2 ↔
          (x0 = false ∧ x1 = true ∧ x2 = false)) := by decide
    obtain ⟨u1, u2, u3⟩ := dec5 x0 x1 x2 x3 x4
    obtain ⟨v1, v2, v3⟩ := dec3 x0 x1 x2 x3 x4
    clear dec5 dec3
    generalize 16 * x0.toNat + 8 * x1.toNat + 4 * x2.toNat + 2 * x3.toNat + x4.toNat = cc at *
    cases dir with
    | ul =>
      simp only
      by_cases c1 : cc = 2
      · rw [if_pos c1]
        exact step decode8Hr 160 .speech8 (syncHr8 ++ bitsAt 9 [false, false, false, true, false]) dsafe_hr8
            rlocal_hr8 hb (by simp [rows8]) ((at5 _ _ _ _ _).2 (u1.1 c1))
      rw [if_neg c1]
      by_cases c2 : cc = 7
      · rw [if_pos c2]
        exact step decode8Data 160 .data8 (syncHr8 ++ bitsAt 9 [false, false, true, true, true]) dsafe_data8
            rlocal_data8 hb (by simp [rows8]) ((at5 _ _ _ _ _).2 (u2.1 c2))
      rw [if_neg c2]
      by_cases c3 : cc = 11
      · rw [if_pos c3]
        exact step decode8Oam 160 .oam8 (syncHr8 ++ bitsAt 9 [false, true, false, true, true]) dsafe_oam8
            rlocal_oam8 hb (by simp [rows8]) ((at5 _ _ _ _ _).2 (u3.1 c3))
      rw [if_neg c3]
      apply none'
      simp only [rows8, List.forall_mem_cons]
      exact ⟨fun h => c1 (u1.2 ((at5 _ _ _ _ _).1 h)), fun h => c2 (u2.2 ((at5 _ _ _ _ _).1 h)),
        fun h => c3 (u3.2 ((at5 _ _ _ _ _).1 h)), key1, key2, key3, by simp⟩
    | dl =>
      simp only
      by_cases c1 : cc / 4 = 0
      · rw [if_pos c1]
        exact step decode8Hr 160 .speech8 (syncHr8 ++ bitsAt 9 [false, false, false]) dsafe_hr8
            rlocal_hr8 hb (by simp [rows8]) ((at3 _ _ _).2 (v1.1 c1))
      rw [if_neg c1]
      by_cases c2 : cc / 4 = 1
      · rw [if_pos c2]
        exact step decode8Data 160 .data8 (syncHr8 ++ bitsAt 9 [false, false, true]) dsafe_data8
            rlocal_data8 hb (by simp [rows8]) ((at3 _ _ _).2 (v2.1 c2))
      rw [if_neg c2]
      by_cases c3 : cc / 4 = 2
      · rw [if_pos c3]
        exact step decode8Oam 160 .oam8 (syncHr8 ++ bitsAt 9 [false, true, false]) dsafe_oam8
            rlocal_oam8 hb (by simp [rows8]) ((at3 _ _ _).2 (v3.1 c3))
      rw [if_neg c3]
      apply none'
      simp only [rows8, List.forall_mem_cons]
      exact ⟨fun h => c1 (v1.2 ((at3 _ _ _).1 h)), fun h => c2 (v2.2 ((at3 _ _ _).1 h)),
        fun h => c3 (v3.2 ((at3 _ _ _).1 h)), key1, key2, key3, by simp⟩
  · rw [hv, bind_ok, if_neg (by simp)]
    have nohr : ∀ l, ¬ Shows b (syncHr8 ++ l) := fun l h => hs fun p hp => h p (List.mem_append_left _ hp)
    have mem : ∀ r ∈ [(syncLow8, FT.amrLow8), (sync67, .amr67), (sync74, .amr74)], r ∈ rows8 dir := by
      intro r hr
      simp only [List.mem_cons, List.not_mem_nil, or_false] at hr
      cases dir <;> rcases hr with rfl | rfl | rfl <;> simp [rows8]
    rcases checkBits_shows (bnd syncLow8 (by decide)) with ⟨lv, ls⟩ | ⟨lv, ls⟩
    · rw [lv, bind_ok, if_pos rfl]
      exact step decode8AmrLow 160 .amrLow8 syncLow8 dsafe_low8 rlocal_low8 hb (mem _ (by simp)) ls
    rw [lv, bind_ok, if_neg (by simp)]
    rcases checkBits_shows (bnd sync67 (by decide)) with ⟨mv, ms⟩ | ⟨mv, ms⟩
    · rw [mv, bind_ok, if_pos rfl]
      exact step decode8Amr67 168 .amr67 sync67 dsafe_67 rlocal_67 (ho ms) (mem _ (by simp)) ms
    rw [mv, bind_ok, if_neg (by simp)]
    rcases checkBits_shows (bnd sync74 (by decide)) with ⟨nv, ns⟩ | ⟨nv, ns⟩
    · rw [nv, bind_ok, if_pos rfl]
      exact step decode8Amr74 160 .amr74 sync74 dsafe_74 rlocal_74 hb (mem _ (by simp)) ns
    rw [nv, bind_ok, if_neg (by simp)]
    apply none'
    intro r hr
    cases dir <;> simp only [rows8, List.mem_cons, List.not_mem_nil, or_false] at hr <;>
      rcases hr with rfl | rfl | rfl | rfl | rfl | rfl <;>
      first | exact nohr _ | exact ls | exact ms | exact ns

/-- **C64** (partial) The 16k decoder needs no more than the 320 bits of the frame: with exactly one frame in
the buffer it does not read outside, and what follows the frame does not matter.  Missing: O&M frames, see
`C64_oam_violated`. -/
theorem C64_reads16_partial (f : Frame) (b r : List Bool) (dir : Dir) (hf : f.WF) (hb : b.length = 320)
    (ho : (b.drop 17).take 5 ∉ [code .oam .ul, code .oam .dl]) :
    ∃ res, decode16k f b dir = .ok res ∧ decode16k f (b ++ r) dir = .ok res := by
  obtain ⟨rc, f', h, _⟩ := C29_classify f b dir hf (by omega) (fun h => absurd h ho)
  exact ⟨_, h, rlocal_decode16k f dir b r _ h⟩

/-- **C64** (partial) The same for the 8k decoder and the 160 bits of a frame.  Missing: AMR 6.7 frames, see
`C64_amr67_violated`. -/
theorem C64_reads8_partial (f : Frame) (b r : List Bool) (dir : Dir) (hf : f.WF) (hb : b.length = 160)
    (ho : ¬ Shows b sync67) :
    ∃ res, decode8k f b dir = .ok res ∧ decode8k f (b ++ r) dir = .ok res := by
  obtain ⟨rc, f', h, _⟩ := C69_classify8 f b dir hf (by omega) (fun h => absurd h ho)
  exact ⟨_, h, rlocal_decode8k f dir b r _ h⟩

/-- **C64** fails for O&M: with *any* O&M frame of 320 bits the 16k decoder reads behind the frame. -/
theorem C64_oam_violated (f : Frame) (b : List Bool) (dir : Dir) (hf : f.WF) (hb : b.length = 320)
    (ho : (b.drop 17).take 5 ∈ [code .oam .ul, code .oam .dl]) : decode16k f b dir = .error .oob := by
  obtain ⟨x0, x1, x2, x3, x4, h1, h2⟩ := getBits_code b 17 (by omega)
  have hx : 16 * x0.toNat + 8 * x1.toNat + 4 * x2.toNat + 2 * x3.toNat + x4.toNat = 0x05 ∨
      16 * x0.toNat + 8 * x1.toNat + 4 * x2.toNat + 2 * x3.toNat + x4.toNat = 0x1b := by
    rw [h1] at ho
    clear h1 h2
    revert ho
    cases x0 <;> cases x1 <;> cases x2 <;> cases x3 <;> cases x4 <;> decide
  have hd : decode16Oam (f.start dir .oam) b = .error .oob := by
    obtain ⟨c, d, t, s, m, crc, xc, h0⟩ := exists_SF (WF.start hf dir .oam)
    obtain ⟨b, rfl⟩ := exists_L' hb
    rw [h0]
    exact oam_oob ..
  unfold decode16k
  rw [h2, bind_ok]
  rcases hx with hx | hx <;> rw [hx] <;> simp only [Nat.reduceEqDiff, if_false, if_true, or_false, false_or] <;>
    (show ret0 (decode16Oam (f.start dir .oam) b) = _) <;> rw [hd, ret0_def] <;> rfl

/-- **C64** fails for AMR 6.7: with *any* such frame of 160 bits the 8k decoder reads behind the frame. -/
theorem C64_amr67_violated (f : Frame) (b : List Bool) (dir : Dir) (hf : f.WF) (hb : b.length = 160)
    (ho : Shows b sync67) : decode8k f b dir = .error .oob := by
  have bnd : ∀ l ∈ [syncHr8, syncLow8, sync67, sync74], ∀ p ∈ l, p.1 < b.length := by
    rw [hb]; decide
  have ex : ∀ l ∈ [syncHr8, syncLow8], ¬ Shows b l := by
    have hx : ∀ r ∈ [syncHr8, syncLow8], ∃ p ∈ sync67, ∃ q ∈ r, p.1 = q.1 ∧ p.2 ≠ q.2 := by decide +kernel
    intro r hr h
    obtain ⟨p, hp, q, hq, e, ne⟩ := hx r hr
    have a := ho p hp
    have b := h q hq
    rw [e, b] at a
    exact ne (Option.some.inj a).symm
  have hd : decode8Amr67 (f.start dir .amr67) b = .error .oob := by
    obtain ⟨c, d, t, s, m, crc, xc, h0⟩ := exists_SF (WF.start hf dir .amr67)
    obtain ⟨b, rfl⟩ := exists_L' hb
    rw [h0]
    exact a67_oob ..
  unfold decode8k
  have eHr : isHr b = checkBits b syncHr8 := rfl
  have eLow : isAmrLow b = checkBits b syncLow8 := rfl
  have e67 : isAmr67 b = checkBits b sync67 := rfl
  rw [eHr, eLow, e67]
  rcases checkBits_shows (bnd syncHr8 (by decide)) with ⟨hv, hs⟩ | ⟨hv, hs⟩
  · exact absurd hs (ex _ (by simp))
  rw [hv, bind_ok, if_neg (by simp)]
  rcases checkBits_shows (bnd syncLow8 (by decide)) with ⟨lv, ls⟩ | ⟨lv, ls⟩
  · exact absurd ls (ex _ (by simp))
  rw [lv, bind_ok, if_neg (by simp)]
  rcases checkBits_shows (bnd sync67 (by decide)) with ⟨mv, ms⟩ | ⟨mv, ms⟩
  · rw [mv, bind_ok, if_pos rfl, hd, ret0_def]; rfl
  · exact absurd ho ms

/-- the hypotheses are met: an O&M frame, a full rate frame, an AMR 6.7 frame and a speech frame on 8k -/
example : (zeros 17 ++ code .oam .dl ++ zeros 298).length = 320 ∧
    ((zeros 17 ++ code .oam .dl ++ zeros 298).drop 17).take 5 ∈ [code .oam .ul, code .oam .dl] ∧
    ((zeros 17 ++ code .fr .dl ++ zeros 298).drop 17).take 5 ∉ [code .oam .ul, code .oam .dl] ∧
    Shows ((List.range 160).map fun i => sync67.contains (i, true)) sync67 ∧
    Shows ((List.range 160).map fun i => syncHr8.contains (i, true)) syncHr8 := by
  unfold Shows; decide +kernel

end Verif.Trau
