import Verif.TrauSyncRe
import Verif.Props.TrauSync
/-!
Refinement of the synchroniser with a user acting within the call-back to a bit-by-bit machine without faults.
-/
namespace Verif.TrauSync
open Verif
open Verif.RaaPrime (bind_ok bind_err)
set_option linter.unusedSimpArgs false
set_option maxRecDepth 4000

/-- What the API requires of the calls made within a call-back (the same conditions as `Admissible`), `ps`
being the patterns selected before: patterns of the table; a secondary pattern has an index 1..7 and the
length of the primary one. -/
def AdmOps : List (Option Pat) → List UOp → Prop
  | _, [] => True
  | _, .setPat i :: os => ∃ p, syncPatterns[i]? = some p ∧ AdmOps (some p :: List.replicate 7 none) os
  | ps, .setSecondary i j :: os => 0 < j ∧ j < 8 ∧
      ∃ p q, ps[0]? = some (some p) ∧ syncPatterns[i]? = some q ∧ q.byteLen = p.byteLen ∧
        AdmOps (ps.set j (some q)) os

/-- A user who keeps to these conditions whenever called. -/
def AdmUser (U : User) : Prop := ∀ es s, AdmOps s.pats (U es s)

/-- sanity of the patterns -/
structure PInv (ps : List (Option Pat)) : Prop where
  len : ps.length = 8
  prim : ∃ p r, ps = some p :: r
  ok : ∀ p, some p ∈ ps → p.OK
  same : ∀ p q, some p ∈ ps → some q ∈ ps → p.byteLen = q.byteLen

theorem Inv.pinv {s : St} (h : Inv s) : PInv s.pats := ⟨h.pats, h.prim, h.ok, h.same⟩

def effPats : List (Option Pat) → List UOp → List (Option Pat)
  | ps, [] => ps
  | _, .setPat i :: os => effPats (syncPatterns[i]? :: List.replicate 7 none) os
  | ps, .setSecondary i j :: os => effPats (ps.set j syncPatterns[i]?) os

def effU (s : St) (os : List UOp) : St :=
  if os = [] then s
  else { s with pats := effPats s.pats os, fsm := if s.fsm = .aligned then .lost else s.fsm,
                timer := if s.fsm = .aligned then false else s.timer }

private theorem single_mem' {p q : Pat} (h : some q ∈ some p :: List.replicate 7 none) : q = p := by
  rcases List.mem_cons.1 h with h | h
  · exact Option.some.inj h
  · simp at h

theorem pinv_single {i : Nat} {p : Pat} (h : syncPatterns[i]? = some p) : PInv (some p :: List.replicate 7 none) where
  len := by simp
  prim := ⟨p, _, rfl⟩
  ok := fun q hq => by rw [single_mem' hq]; exact table_ok p (List.mem_of_getElem? h)
  same := fun a b ha hb => by rw [single_mem' ha, single_mem' hb]

theorem pinv_set {ps : List (Option Pat)} (h : PInv ps) {i j : Nat} {p q : Pat} (h0 : 0 < j)
    (hp : ps[0]? = some (some p)) (hq : syncPatterns[i]? = some q) (hl : q.byteLen = p.byteLen) :
    PInv (ps.set j (some q)) := by
  have hmem : ∀ a, some a ∈ ps.set j (some q) → some a ∈ ps ∨ a = q := by
    intro a ha
    rcases List.mem_or_eq_of_mem_set ha with h1 | h1
    · exact Or.inl h1
    · exact Or.inr (Option.some.inj h1)
  have hpm : some p ∈ ps := List.mem_of_getElem? hp
  have hlen : ∀ a, some a ∈ ps ∨ a = q → a.byteLen = p.byteLen := by
    rintro a (h1 | h1)
    · exact h.same _ _ h1 hpm
    · rw [h1, hl]
  refine ⟨by simp [h.len], ?_, ?_, ?_⟩
  · obtain ⟨p', r, hr⟩ := h.prim
    obtain ⟨j, rfl⟩ : ∃ j', j = j' + 1 := ⟨j - 1, by omega⟩
    exact ⟨p', r.set j (some q), by simp [hr]⟩
  · intro a ha
    rcases hmem a ha with h1 | h1
    · exact h.ok a h1
    · rw [h1]; exact table_ok q (List.mem_of_getElem? hq)
  · intro a b ha hb
    rw [hlen a (hmem a ha), hlen b (hmem b hb)]

theorem stateChg_lost (g : Nat → Nat → Byte) (s : St) (t : Bool) : stateChg g s .lost t =
    .ok (if s.fsm = .aligned then { s with fsm := .lost, timer := t } else s, []) := by
  unfold stateChg
  cases hh : s.fsm <;> simp [allowed]

theorem effPats_pinv : ∀ (os : List UOp) (ps : List (Option Pat)), PInv ps → AdmOps ps os →
    PInv (effPats ps os) := by
  intro os
  induction os with
  | nil => intro ps h _; exact h
  | cons o os ih =>
    intro ps h ha
    cases o with
    | setPat i =>
      obtain ⟨p, hp, ha⟩ := ha
      simp only [effPats, hp]
      exact ih _ (pinv_single hp) ha
    | setSecondary i j =>
      obtain ⟨h0, _, p, q, hp, hq, hl, ha⟩ := ha
      simp only [effPats, hq]
      exact ih _ (pinv_set h h0 hp hq hl) ha

theorem setPat_eff (g : Nat → Nat → Byte) (s : St) {i : Nat} {p : Pat} (hp : syncPatterns[i]? = some p) :
    setPat g s i = .ok (effU s [.setPat i], []) := by
  have hrd : rd syncPatterns i = .ok p := by simp [rd, hp]
  simp only [setPat, hrd, bind_ok, stateChg_lost, effU, effPats, hp]
  cases hh : s.fsm <;> simp [hh]

theorem setSecondary_eff (g : Nat → Nat → Byte) (s : St) (h : PInv s.pats) {i j : Nat} {p q : Pat} (h0 : 0 < j)
    (h8 : j < 8) (hp : s.pats[0]? = some (some p)) (hq : syncPatterns[i]? = some q)
    (hl : q.byteLen = p.byteLen) : setSecondary g s i j = .ok (effU s [.setSecondary i j], []) := by
  have hp0 : p = prim s := by
    obtain ⟨p', ps, hps⟩ := h.prim
    rw [hps] at hp; simp at hp; simp [prim, hps, hp]
  have hrd : rd syncPatterns i = .ok q := by simp [rd, hq]
  have hjl : j < s.pats.length := by rw [h.len]; exact h8
  simp only [setSecondary, patAt_zero h.prim, hrd, bind_ok, cassert, h0, hjl, decide_true, if_true,
    ← hp0, hl, wr, stateChg_lost, effU, effPats, hq]
  cases hh : s.fsm <;> simp [hh]

theorem effU_cons (s : St) (o : UOp) (os : List UOp) : effU s (o :: os) = effU (effU s [o]) os := by
  cases os with
  | nil => simp [effU]
  | cons o' os => cases o <;> cases hh : s.fsm <;> simp [effU, effPats, hh]

theorem applyOps_eff (g : Nat → Nat → Byte) : ∀ (os : List UOp) (s : St), PInv s.pats → AdmOps s.pats os →
    applyOps g s os = .ok (effU s os) := by
  intro os
  induction os with
  | nil => intro s _ _; simp [applyOps, effU]
  | cons o os ih =>
    intro s h ha
    rw [effU_cons]
    cases o with
    | setPat i =>
      obtain ⟨p, hp, ha⟩ := ha
      have hps : (effU s [.setPat i]).pats = some p :: List.replicate 7 none := by simp [effU, effPats, hp]
      rw [applyOps, setPat_eff g s hp]
      simp only [bind_ok]
      exact ih _ (by rw [hps]; exact pinv_single hp) (by rw [hps]; exact ha)
    | setSecondary i j =>
      obtain ⟨h0, h8, p, q, hp, hq, hl, ha⟩ := ha
      have hps : (effU s [.setSecondary i j]).pats = s.pats.set j (some q) := by simp [effU, effPats, hq]
      rw [applyOps, setSecondary_eff g s h h0 h8 hp hq hl]
      simp only [bind_ok]
      exact ih _ (by rw [hps]; exact pinv_set h h0 hp hq hl) (by rw [hps]; exact ha)

/-- program counter, state and call-backs so far -/
structure Cfg where
  al : Bool
  s : St
  es : List Ev

/-- the user is called -/
def tell (U : User) (s : St) (es : List Ev) (e : Ev) : St := effU s (U (es ++ [e]) s)

theorem callU_eff (g : Nat → Nat → Byte) (U : User) (hU : AdmUser U) (s : St) (h : PInv s.pats) (es : List Ev)
    (e : Ev) : callU g U s es e = .ok (tell U s es e, es ++ [e]) := by
  unfold callU tell
  rw [applyOps_eff g _ s h (hU _ _)]
  rfl

/-- a block is complete -/
def endU (U : User) (s : St) (es : List Ev) : Cfg :=
  if ∃ p ∈ s.pats.filterMap id, Matches p (s.hist.take (N s)) then
    { al := true, s := { tell U { s with errs := 0 } es (some (s.hist.take (N s))) with idx := 0 }
      es := es ++ [some (s.hist.take (N s))] }
  else if (s.errs + 1) % 2 ^ 32 ≥ 3 then
    let s' := tell U { s with errs := (s.errs + 1) % 2 ^ 32, idx := 0 } es none
    { al := false, s := if s'.fsm = .aligned then { s' with fsm := .lost, timer := true } else s'
      es := es ++ [none] }
  else
    { al := true
      s := { tell U { s with errs := (s.errs + 1) % 2 ^ 32 } es (some (s.hist.take (N s))) with idx := 0 }
      es := es ++ [some (s.hist.take (N s))] }

/-- a bit was received while searching -/
def acqU (g : Nat → Nat → Byte) (U : User) (s : St) (es : List Ev) : Cfg :=
  if Matches (prim s) (win s (N s)) then
    let s' := tell U (aligned g s) es (some (win s (N s)))
    { al := s'.fsm == .aligned, s := s', es := es ++ [some (win s (N s))] }
  else { al := false, s := s, es := es }

/-- one received bit -/
def stepU (g : Nat → Nat → Byte) (U : User) (c : Cfg) (b : Byte) : Cfg :=
  if c.al then
    if c.s.idx + 1 < N c.s then
      { c with s := { c.s with hist := c.s.hist.set c.s.idx b, idx := c.s.idx + 1 } }
    else endU U { c.s with hist := c.s.hist.set c.s.idx b, idx := c.s.idx + 1 } c.es
  else acqU g U { c.s with hist := c.s.hist.set c.s.idx b, idx := (c.s.idx + 1) % HIST } c.es

def runU (g : Nat → Nat → Byte) (U : User) (c : Cfg) (bs : List Byte) : Cfg := bs.foldl (stepU g U) c

/-- invariant at each bit -/
structure CInv (c : Cfg) : Prop where
  len : c.s.hist.length = HIST
  idx : c.s.idx < HIST
  p : PInv c.s.pats
  errs : c.s.errs < 2 ^ 32
  yes : c.al = true → c.s.idx < N c.s ∧ c.s.fsm ≠ .wait
  no : c.al = false → c.s.fsm ≠ .aligned

theorem CInv.inv {c : Cfg} (h : CInv c) : Inv c.s where
  len := h.len
  idx := h.idx
  pats := h.p.len
  prim := h.p.prim
  ok := h.p.ok
  same := h.p.same
  al := by
    intro hf p hp
    have ha : c.al = true := by
      cases hc : c.al with
      | true => rfl
      | false => exact absurd hf (h.no hc)
    have := (h.yes ha).1
    obtain ⟨q, r, hq⟩ := h.p.prim
    rw [h.p.same p q hp (by simp [hq])]
    simpa [N, TrauSync.prim, hq] using this
  errs := h.errs

theorem Inv.cinv {s : St} (h : Inv s) (es : List Ev) : CInv ⟨s.fsm == .aligned, s, es⟩ where
  len := h.len
  idx := h.idx
  p := h.pinv
  errs := h.errs
  yes := by
    intro ha
    have hf : s.fsm = .aligned := by simpa using ha
    exact ⟨h.al hf _ h.prim_mem, by simp [hf]⟩
  no := by intro ha; simpa using ha

theorem pinv_N {s : St} (h : PInv s.pats) : 0 < N s ∧ N s ≤ 1280 := by
  obtain ⟨p, r, hp⟩ := h.prim
  have hok := h.ok p (by simp [hp])
  have h1 := hok.pos
  have h2 := hok.le
  simp only [N, prim, hp]
  omega

theorem tell_facts (U : User) (hU : AdmUser U) (s : St) (h : PInv s.pats) (es : List Ev) (e : Ev) :
    PInv (tell U s es e).pats ∧ (tell U s es e).hist = s.hist ∧ (tell U s es e).idx = s.idx ∧
    (tell U s es e).errs = s.errs ∧ (s.fsm ≠ .wait → (tell U s es e).fsm ≠ .wait) := by
  unfold tell effU
  split
  · exact ⟨h, rfl, rfl, rfl, id⟩
  · refine ⟨effPats_pinv _ _ h (hU _ _), rfl, rfl, rfl, ?_⟩
    intro hw
    cases hh : s.fsm <;> simp_all

private theorem hgen (s : St) (es : List Ev) (hp : PInv s.pats) (hl : s.hist.length = HIST)
    (he : s.errs < 2 ^ 32) (hw : s.fsm ≠ .wait) : CInv ⟨true, { s with idx := 0 }, es⟩ :=
  ⟨hl, (by decide : 0 < HIST), hp, he, fun _ => ⟨(pinv_N hp).1, hw⟩, by simp⟩

theorem stepU_inv (g : Nat → Nat → Byte) (U : User) (hU : AdmUser U) (c : Cfg) (h : CInv c) (b : Byte) :
    CInv (stepU g U c b) := by
  obtain ⟨al, s, es⟩ := c
  have hlen := h.len
  have hidx := h.idx
  have hp := h.p
  have herr := h.errs
  have hyes := h.yes
  have hno := h.no
  simp only at hlen hidx hp herr hyes hno
  have hH : HIST = 1281 := rfl
  have hmod : (s.errs + 1) % 2 ^ 32 < 2 ^ 32 := Nat.mod_lt _ (by decide)
  have hl1 : (s.hist.set s.idx b).length = HIST := by simp [hlen]
  unfold stepU
  cases al with
  | true =>
    obtain ⟨hlt, hw⟩ := hyes rfl
    have hN := pinv_N hp
    simp only [if_true]
    split
    · rename_i hlt'
      exact ⟨hl1, by simp only; omega, hp, herr, fun _ => ⟨hlt', hw⟩, by simp⟩
    · unfold endU
      split
      · obtain ⟨t1, t2, t3, t4, t5⟩ := tell_facts U hU
          { s with hist := s.hist.set s.idx b, idx := s.idx + 1, errs := 0 } hp es
          (some ((s.hist.set s.idx b).take (N s)))
        exact hgen _ _ t1 (by rw [← hl1]; exact congrArg List.length t2) (t4 ▸ (by decide : 0 < 2 ^ 32)) (t5 hw)
      · split
        · obtain ⟨t1, t2, t3, t4, t5⟩ := tell_facts U hU
            { s with hist := s.hist.set s.idx b, idx := 0, errs := (s.errs + 1) % 2 ^ 32 } hp es none
          refine ⟨?_, ?_, ?_, ?_, by simp, ?_⟩
          · simp only; split <;> (simp only [t2]; exact hl1)
          · simp only; split <;> (simp only [t3]; decide)
          · simp only; split <;> exact t1
          · simp only; split <;> (simp only [t4]; exact hmod)
          · intro _
            simp only; split
            · simp
            · rename_i hh; exact hh
        · obtain ⟨t1, t2, t3, t4, t5⟩ := tell_facts U hU
            { s with hist := s.hist.set s.idx b, idx := s.idx + 1, errs := (s.errs + 1) % 2 ^ 32 } hp es
            (some ((s.hist.set s.idx b).take (N s)))
          exact hgen _ _ t1 (by rw [← hl1]; exact congrArg List.length t2) (t4 ▸ hmod) (t5 hw)
  | false =>
    have hna := hno rfl
    have hi' : (s.idx + 1) % HIST < HIST := Nat.mod_lt _ (by decide)
    simp only [Bool.false_eq_true, if_false]
    unfold acqU
    split
    · generalize hs1 : ({ s with hist := s.hist.set s.idx b, idx := (s.idx + 1) % HIST } : St) = s1
      have hp1 : PInv s1.pats := by subst hs1; exact hp
      have hN1 := pinv_N hp1
      have hw : (win s1 (N s1)).length = N s1 :=
          win_length (by subst hs1; exact hl1) (by subst hs1; exact Nat.le_of_lt hi') (by omega)
      have he1 : s1.errs = s.errs := by subst hs1; rfl
      obtain ⟨t1, t2, t3, t4, t5⟩ := tell_facts U hU (aligned g s1) hp1 es (some (win s1 (N s1)))
      refine ⟨?_, ?_, t1, ?_, ?_, ?_⟩
      · simp only [t2]
        simp only [aligned, List.length_append, hw, List.length_map, List.length_range]
        omega
      · simp only [t3]; exact (by decide : 0 < HIST)
      · simp only [t4]; show s1.errs < _; rw [he1]; exact herr
      · intro ha
        refine ⟨?_, ?_⟩
        · simp only [t3]; exact (pinv_N t1).1
        · exact t5 (by simp [aligned])
      · intro ha; simpa using ha
    · exact ⟨hl1, hi', hp, herr, by simp, fun _ => hna⟩

theorem runU_append (g : Nat → Nat → Byte) (U : User) (c : Cfg) (a b : List Byte) :
    runU g U c (a ++ b) = runU g U (runU g U c a) b := by simp [runU, List.foldl_append]

theorem runU_inv (g : Nat → Nat → Byte) (U : User) (hU : AdmUser U) : ∀ (bs : List Byte) (c : Cfg), CInv c →
    CInv (runU g U c bs)
  | [], _, h => h
  | b :: bs, c, h => runU_inv g U hU bs _ (stepU_inv g U hU c h b)

theorem runU_partial (g : Nat → Nat → Byte) (U : User) : ∀ (bs : List Byte) (s : St) (es : List Ev),
    s.idx + bs.length < N s → N s ≤ s.hist.length →
    runU g U ⟨true, s, es⟩ bs = ⟨true, { s with hist := put s.hist s.idx bs, idx := s.idx + bs.length }, es⟩ := by
  intro bs
  induction bs with
  | nil => intro s es _ _; simp [runU, put_nil]
  | cons b bs ih =>
    intro s es hlt hl
    simp only [List.length_cons] at hlt
    have hs : stepU g U ⟨true, s, es⟩ b = ⟨true, { s with hist := s.hist.set s.idx b, idx := s.idx + 1 }, es⟩ := by
      unfold stepU
      simp only [if_true]
      rw [if_pos (by omega)]
    have hi := ih { s with hist := s.hist.set s.idx b, idx := s.idx + 1 } es
      (by show s.idx + 1 + bs.length < N s; omega)
      (by show N s ≤ (s.hist.set s.idx b).length; simpa using hl)
    unfold runU at hi ⊢
    rw [List.foldl_cons, hs, hi]
    simp only
    rw [put_cons _ _ _ _ (by omega)]
    simp only [List.length_cons]
    rw [show s.idx + 1 + bs.length = s.idx + (bs.length + 1) by omega]

theorem runU_block (g : Nat → Nat → Byte) (U : User) (bs : List Byte) (s : St) (es : List Ev)
    (hne : bs ≠ []) (hlt : s.idx + bs.length = N s) (hl : N s ≤ s.hist.length) :
    runU g U ⟨true, s, es⟩ bs = endU U { s with hist := put s.hist s.idx bs, idx := s.idx + bs.length } es := by
  obtain ⟨pre, b, rfl⟩ : ∃ pre b, bs = pre ++ [b] :=
    ⟨bs.dropLast, bs.getLast hne, (List.dropLast_concat_getLast hne).symm⟩
  simp only [List.length_append, List.length_cons, List.length_nil, Nat.zero_add] at hlt
  rw [runU_append, runU_partial g U pre s es (by omega) hl]
  have hput : (put s.hist s.idx pre).set (s.idx + pre.length) b = put s.hist s.idx (pre ++ [b]) := by
    apply List.ext_getElem?
    intro i
    unfold put
    simp only [List.length_append, List.length_cons, List.length_nil, Nat.zero_add]
    rw [List.getElem?_set]
    simp only [List.getElem?_append, List.length_append, List.length_take, List.length_cons, List.length_nil,
      List.getElem?_drop, List.getElem?_take, Nat.zero_add]
    rw [Nat.min_eq_left (by omega)]
    by_cases h1 : i < s.idx
    · rw [if_neg (by omega), if_pos (by omega), if_pos h1, if_pos (by omega), if_pos (by omega), if_pos h1]
    · by_cases h2 : i < s.idx + pre.length
      · rw [if_neg (by omega), if_pos h2, if_neg h1, if_pos (by omega), if_neg h1, if_pos (by omega)]
      · by_cases h3 : i = s.idx + pre.length
        · rw [if_pos (by omega), if_pos (by simp only [List.length_drop]; omega), if_pos (by omega), if_neg h1,
            if_neg (by omega)]
          rw [show i - s.idx - pre.length = 0 by omega]; rfl
        · rw [if_neg (by omega), if_neg h2, if_neg (by omega)]
          congr 1; omega
  show stepU g U ⟨true, { s with hist := put s.hist s.idx pre, idx := s.idx + pre.length }, es⟩ b = _
  unfold stepU
  simp only [if_true]
  rw [if_neg (by
    show ¬ s.idx + pre.length + 1 < N s
    omega)]
  rw [hput]
  simp only [List.length_append, List.length_cons, List.length_nil, Nat.zero_add, Nat.add_assoc]

theorem loopU_eq (g : Nat → Nat → Byte) (U : User) (hU : AdmUser U) :
    ∀ (fuel : Nat) (al : Bool) (s : St) (bits : List Byte) (es : List Ev), CInv ⟨al, s, es⟩ →
    bits.length ≤ fuel → loopU g U fuel al s bits es =
      .ok ((runU g U ⟨al, s, es⟩ bits).s, (runU g U ⟨al, s, es⟩ bits).es) := by
  intro fuel
  induction fuel with
  | zero =>
    intro al s bits es _ hle
    have : bits = [] := List.length_eq_zero_iff.1 (by omega)
    subst this
    simp [loopU, runU]
  | succ fuel ih =>
    intro al s bits es hc hle
    have h := hc.inv
    simp only at h
    cases bits with
    | nil => simp [loopU, runU]
    | cons b bs =>
      have hN := N_le h
      have hNp := N_pos h
      have hH : HIST = 1281 := rfl
      simp only [List.length_cons] at hle
      cases al with
      | true =>
        obtain ⟨hidx, hw⟩ := hc.yes rfl
        simp only at hidx hw
        rw [loopU]
        simp only [patAt_zero h.prim, bind_ok]
        have hrem : remaining (prim s) s.idx = N s - s.idx :=
          remaining_eq (Nat.le_of_lt hidx) (by unfold N at hN; exact hN)
        rw [hrem]
        by_cases hlt : (b :: bs).length < N s - s.idx
        · rw [if_pos hlt, addBits_spec h _ (by omega), runU_partial g U _ s es (by omega) (by rw [h.len]; omega)]
          simp only [bind_ok]
        · rw [if_neg hlt]
          generalize hblk : (b :: bs).take (N s - s.idx) = blk
          generalize hrest : (b :: bs).drop (N s - s.idx) = rest
          have hcat : b :: bs = blk ++ rest := by rw [← hblk, ← hrest, List.take_append_drop]
          have hbl : blk.length = N s - s.idx := by
            rw [← hblk, List.length_take]; omega
          have hrl : rest.length ≤ fuel := by
            rw [← hrest, List.length_drop, List.length_cons]; omega
          have hadd := addBits_spec h blk (by omega)
          rw [hcat, runU_append, hadd]
          simp only [bind_ok]
          have hne : blk ≠ [] := by intro hh; rw [hh] at hbl; simp at hbl; omega
          have hinv := runU_inv g U hU blk ⟨true, s, es⟩ hc
          have hrb := runU_block g U blk s es hne (by omega) (by rw [h.len]; omega)
          unfold endU at hrb
          change runU g U ⟨true, s, es⟩ blk =
            if ∃ p ∈ s.pats.filterMap id, Matches p ((put s.hist s.idx blk).take (N s)) then
              { al := true
                s := { tell U { s with hist := put s.hist s.idx blk, idx := s.idx + blk.length, errs := 0 } es
                        (some ((put s.hist s.idx blk).take (N s))) with idx := 0 }
                es := es ++ [some ((put s.hist s.idx blk).take (N s))] }
            else if (s.errs + 1) % 2 ^ 32 ≥ 3 then
              { al := false
                s := if (tell U { s with hist := put s.hist s.idx blk, idx := 0, errs := (s.errs + 1) % 2 ^ 32 }
                          es none).fsm = .aligned then
                       { tell U { s with hist := put s.hist s.idx blk, idx := 0, errs := (s.errs + 1) % 2 ^ 32 }
                          es none with fsm := .lost, timer := true }
                     else tell U { s with hist := put s.hist s.idx blk, idx := 0, errs := (s.errs + 1) % 2 ^ 32 }
                          es none
                es := es ++ [none] }
            else
              { al := true
                s := { tell U { s with hist := put s.hist s.idx blk, idx := s.idx + blk.length
                                       errs := (s.errs + 1) % 2 ^ 32 } es
                        (some ((put s.hist s.idx blk).take (N s))) with idx := 0 }
                es := es ++ [some ((put s.hist s.idx blk).take (N s))] } at hrb
          have hplen : (put s.hist s.idx blk).length = HIST := by
            rw [put_length _ _ _ (by rw [h.len]; omega), h.len]
          obtain ⟨r, r1, r2⟩ := corrPats_spec
            (s := { s with hist := put s.hist s.idx blk, idx := s.idx + blk.length })
            hplen (by simp only; omega) s.pats (160 * 8) (by decide) h.ok
          have hwin : ∀ p, some p ∈ s.pats → win { s with hist := put s.hist s.idx blk, idx := s.idx + blk.length }
              (p.byteLen * 8) = (put s.hist s.idx blk).take (N s) := by
            intro p hp
            have : p.byteLen * 8 = N s := by rw [h.same p _ hp h.prim_mem]; rfl
            rw [this]
            exact win_block _ rfl hplen _ (by omega) (by simp only; omega)
          have r2' : r = 0 ↔ ∃ p ∈ s.pats.filterMap id, Matches p ((put s.hist s.idx blk).take (N s)) := by
            rw [r2]
            constructor
            · rintro ⟨p, p1, p2⟩; exact ⟨p, (filterMap_id_mem _ _).2 p1, by rw [← hwin p p1]; exact p2⟩
            · rintro ⟨p, p1, p2⟩
              have p1 := (filterMap_id_mem _ _).1 p1
              exact ⟨p, p1, by rw [hwin p p1]; exact p2⟩
          have hsl : slice (put s.hist s.idx blk) 0 (s.idx + blk.length) =
              .ok ((put s.hist s.idx blk).take (N s)) := by
            rw [slice_ok (by omega), List.drop_zero, show s.idx + blk.length = N s by omega]
          unfold correlateAll
          simp only [r1, bind_ok]
          have hpin : PInv s.pats := h.pinv
          by_cases hm : ∃ p ∈ s.pats.filterMap id, Matches p ((put s.hist s.idx blk).take (N s))
          · have hr0 : r = 0 := r2'.2 hm
            subst hr0
            simp only [gt_iff_lt, Nat.lt_irrefl, if_false, false_and]
            simp only [hm, if_true] at hrb
            rw [hrb] at hinv
            rw [hrb, hsl]
            simp only [bind_ok]
            rw [callU_eff g U hU _ (by exact hpin)]
            simp only [bind_ok]
            exact ih _ _ rest _ hinv hrl
          · have hr0 : r > 0 := Nat.pos_of_ne_zero (fun hh => hm (r2'.1 hh))
            simp only [hr0, if_true, true_and]
            simp only [hm, if_false] at hrb
            by_cases he : (s.errs + 1) % 2 ^ 32 ≥ 3
            · simp only [he, if_true] at hrb ⊢
              rw [hrb] at hinv
              rw [hrb]
              rw [callU_eff g U hU _ (by exact hpin)]
              simp only [bind_ok, stateChg_lost]
              have hfalse := hinv.no rfl
              simp only at hfalse
              rw [show ((if (tell U { s with hist := put s.hist s.idx blk, idx := 0, errs := (s.errs + 1) % 2 ^ 32 }
                          es none).fsm = .aligned then
                       { tell U { s with hist := put s.hist s.idx blk, idx := 0, errs := (s.errs + 1) % 2 ^ 32 }
                          es none with fsm := .lost, timer := true }
                     else tell U { s with hist := put s.hist s.idx blk, idx := 0, errs := (s.errs + 1) % 2 ^ 32 }
                          es none).fsm == .aligned) = false by simpa using hfalse]
              exact ih _ _ rest _ hinv hrl
            · simp only [he, if_false] at hrb ⊢
              rw [hrb] at hinv
              rw [hrb, hsl]
              simp only [bind_ok]
              rw [callU_eff g U hU _ (by exact hpin)]
              simp only [bind_ok]
              exact ih _ _ rest _ hinv hrl
      | false =>
        have hf := hc.no rfl
        simp only at hf
        have hstep := stepU_inv g U hU _ hc b
        have hidx := h.idx
        rw [loopU]
        have ha : addBit s b = .ok { s with hist := s.hist.set s.idx b, idx := (s.idx + 1) % HIST } := by
          unfold addBit wr
          rw [if_pos (by rw [h.len]; exact hidx)]
          simp only [bind_ok]
        rw [ha]
        simp only [bind_ok]
        have hst : stepU g U ⟨false, s, es⟩ b =
          acqU g U { s with hist := s.hist.set s.idx b, idx := (s.idx + 1) % HIST } es := rfl
        generalize hs1 : ({ s with hist := s.hist.set s.idx b, idx := (s.idx + 1) % HIST } : St) = s1 at *
        have hlen1 : s1.hist.length = HIST := by subst hs1; simp [h.len]
        have hidx1 : s1.idx < HIST := by subst hs1; exact Nat.mod_lt _ (by decide)
        have hprim1 : prim s1 = prim s := by subst hs1; rfl
        have hp1 : ∃ p ps, s1.pats = some p :: ps := by subst hs1; exact h.prim
        have hpi1 : PInv s1.pats := by subst hs1; exact h.pinv
        have hfsm1 : s1.fsm ≠ .aligned := by subst hs1; exact hf
        have hal : allowed s1.fsm .aligned = true := by cases hh : s1.fsm <;> simp_all [allowed]
        have hok := h.ok _ h.prim_mem
        have hNs : N s1 = N s := by rw [N, hprim1]; rfl
        rw [patAt_zero hp1]
        simp only [bind_ok]
        obtain ⟨r, r1, r2⟩ := correlate_spec hlen1 (Nat.le_of_lt hidx1) (p := prim s1) (by rw [hprim1]; exact hok)
        rw [r1]
        simp only [bind_ok]
        rw [show (prim s1).byteLen * 8 = N s1 from rfl] at r2
        have hcons : runU g U ⟨false, s, es⟩ (b :: bs) = runU g U (stepU g U ⟨false, s, es⟩ b) bs := rfl
        rw [hcons]
        unfold acqU at hst
        by_cases hr : r = 0
        · rw [if_pos hr]
          rw [if_pos (r2.1 hr)] at hst
          rw [hst] at hstep ⊢
          simp only [enterAligned, hal, if_true]
          have halign : align g { s1 with fsm := .aligned, timer := false } = .ok (aligned g s1) :=
            align_spec g (s := { s1 with fsm := .aligned, timer := false }) hlen1
              (Nat.le_of_lt hidx1) hp1 (by
              show (prim s1).OK
              rw [hprim1]; exact hok)
          rw [halign]
          simp only [bind_ok]
          have hwl : (win s1 (N s1)).length = N s1 := win_length hlen1 (Nat.le_of_lt hidx1) (by omega)
          have hpa' : patAt (aligned g s1) 0 = .ok (prim s1) := patAt_zero (s := aligned g s1) hp1
          have hsl : slice (aligned g s1).hist 0 ((prim s1).byteLen * 8) = .ok (win s1 (N s1)) := by
            show slice (win s1 (N s1) ++ _) 0 (N s1) = _
            rw [slice_ok (by simp [hwl])]
            simp [hwl]
          rw [hpa']
          simp only [bind_ok]
          rw [hsl]
          simp only [bind_ok]
          rw [callU_eff g U hU _ (by exact hpi1)]
          simp only [bind_ok]
          exact ih _ _ bs _ hstep (by omega)
        · rw [if_neg hr]
          rw [if_neg (fun hh => hr (r2.2 hh))] at hst
          rw [hst] at hstep ⊢
          exact ih _ _ bs _ hstep (by omega)

theorem rxUbitsU_eq (g : Nat → Nat → Byte) (U : User) (hU : AdmUser U) (s : St) (h : Inv s) (bits : List Byte)
    (es : List Ev) : rxUbitsU g U s bits es =
      .ok ((runU g U ⟨s.fsm == .aligned, s, es⟩ bits).s, (runU g U ⟨s.fsm == .aligned, s, es⟩ bits).es) :=
  loopU_eq g U hU _ _ s bits es (h.cinv es) (Nat.le_refl _)

end Verif.TrauSync
