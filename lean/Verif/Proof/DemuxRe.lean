import Verif.Proof.Demux
import Verif.Spec.DemuxRe
/-! Proof infrastructure for C159 -/
namespace Verif.Demux.Re
open Verif.Spec
open Verif.RaaPrime (bind_ok bind_err)
set_option linter.unusedSimpArgs false
set_option maxRecDepth 4000

/-- pure version of `apply` -/
def ap (d : Dmx) : CbOp → Dmx
  | .activate n => if n < 4 then { d with chanActiv := d.chanActiv ||| ((1 : Byte) <<< n) } else d
  | .deactivate n => if n < 4 then { d with chanActiv := d.chanActiv &&& ~~~((1 : Byte) <<< n) } else d
  | .init => init d

theorem apply_eq (d : Dmx) (o : CbOp) : apply d o = .ok (ap d o) := by
  cases o with
  | activate n =>
    simp only [apply, activate, ap]
    by_cases h : n < 4
    · rw [if_neg (by omega), if_neg (by omega), if_pos h]; rfl
    · rw [if_pos (by omega), if_neg h]; rfl
  | deactivate n =>
    simp only [apply, deactivate, ap]
    by_cases h : n < 4
    · rw [if_neg (by omega), if_neg (by omega), if_pos h]; rfl
    · rw [if_pos (by omega), if_neg h]; rfl
  | init => rfl

def apAll (d : Dmx) (os : List CbOp) : Dmx := os.foldl ap d

theorem applyAll_eq (os : List CbOp) : ∀ d, applyAll d os = .ok (apAll d os) := by
  induction os with
  | nil => intro d; rfl
  | cons o os ih => intro d; simp only [applyAll, apply_eq, bind_ok, ih]; rfl

/-- clearing after the call-back -/
def clr (d : Dmx) (c : Nat) : Dmx := setSub d c { d.subch c with inSync := false, outIdx := 0 }

theorem ap_clr (d : Dmx) (c : Nat) (o : CbOp) : ap (clr d c) o = clr (ap d o) c := by
  cases o with
  | activate n => simp only [ap]; split <;> rfl
  | deactivate n => simp only [ap]; split <;> rfl
  | init =>
    simp only [ap, init, clr, setSub, Dmx.mk.injEq, true_and]
    funext i
    by_cases h : i = c <;> simp [h]

theorem apAll_clr (os : List CbOp) : ∀ (d : Dmx) (c : Nat), apAll (clr d c) os = clr (apAll d os) c := by
  induction os with
  | nil => intro d c; rfl
  | cons o os ih => intro d c; simp only [apAll, List.foldl_cons, ap_clr]; exact ih _ _

/-- pure version of `feed` -/
def fe {U : Type} (cb : Cb U) (u : U) (d : Dmx) (c : Nat) (bit : Bool) : U × Dmx × List Ent :=
  match (stepS (d.subch c) bit).2 with
  | none => (u, setSub d c (stepS (d.subch c) bit).1, [])
  | some f => ((cb u c f).1, apAll (setSub d c (stepS (d.subch c) bit).1) (cb u c f).2, .frame c f :: (cb u c f).2.map .op)

/-- the end of `feed` -/
theorem feed_tail {U : Type} (cb : Cb U) (u : U) (d : Dmx) (c : Nat) (bit : Bool) (s2 : Sch)
    (key : (if s2.outIdx ≥ TRAU_FRAME_BITS then
        if s2.inSync = true then do
          let data ← slice s2.outBitbuf 0 s2.outIdx
          .ok ({ s2 with inSync := false, outIdx := 0 }, some data)
        else .ok ({ s2 with outIdx := 0 }, none)
      else .ok (s2, none) : M (Sch × Option (List Byte))) = .ok (stepS (d.subch c) bit)) :
    (if s2.outIdx ≥ TRAU_FRAME_BITS then
      if s2.inSync = true then do
        let data ← slice s2.outBitbuf 0 s2.outIdx
        let d' ← applyAll (setSub d c s2) (cb u c data).2
        .ok ((cb u c data).1, setSub d' c { d'.subch c with inSync := false, outIdx := 0 }, .frame c data :: (cb u c data).2.map .op)
      else .ok (u, setSub d c { s2 with outIdx := 0 }, [])
    else .ok (u, setSub d c s2, []) : M (U × Dmx × List Ent)) = .ok (fe cb u d c bit) := by
  by_cases h3 : s2.outIdx ≥ TRAU_FRAME_BITS
  · rw [if_pos h3] at key ⊢
    cases h4 : s2.inSync with
    | true =>
      rw [h4] at key
      simp only [if_true] at key ⊢
      cases h5 : slice s2.outBitbuf 0 s2.outIdx with
      | error e => rw [h5] at key; cases key
      | ok data =>
        rw [h5] at key
        simp only [bind_ok] at key ⊢
        have e := Except.ok.inj key
        simp only [applyAll_eq, bind_ok, fe, ← e]
        have : setSub d c { s2 with inSync := false, outIdx := 0 } = clr (setSub d c s2) c := by
          simp only [clr, setSub, Dmx.mk.injEq, true_and]
          funext i
          by_cases h : i = c <;> simp [h]
        rw [this, apAll_clr]
        rfl
    | false =>
      rw [h4] at key
      simp only [Bool.false_eq_true, if_false] at key ⊢
      have e := Except.ok.inj key
      simp only [fe, ← e, h4]
  · rw [if_neg h3] at key ⊢
    have e := Except.ok.inj key
    simp only [fe, ← e]

theorem feed_eq {U : Type} (cb : Cb U) (u : U) (d : Dmx) (c : Nat) (bit : Bool) (h : (d.subch c).WF) :
    feed cb u d c bit = .ok (fe cb u d c bit) := by
  have key := appendBitResyncOut_eq (d.subch c) bit h
  rw [appendBitResyncOut] at key
  rw [feed]
  cases h1 : appendBit (d.subch c) bit with
  | error e => rw [h1] at key; cases key
  | ok s =>
    rw [h1] at key
    simp only [bind_ok] at key ⊢
    generalize hs : syncHdrComplete s bit = p at key ⊢
    obtain ⟨s1, complete⟩ := p
    cases complete with
    | true =>
      simp only [if_true] at key ⊢
      cases h2 : resyncToHere s1 with
      | error e => rw [h2] at key; cases key
      | ok s2 =>
        rw [h2] at key
        simp only [bind_ok] at key ⊢
        exact feed_tail cb u d c bit s2 key
    | false =>
      simp only [Bool.false_eq_true, if_false] at key ⊢
      exact feed_tail cb u d c bit s1 key

def AllWF (d : Dmx) : Prop := ∀ c < 4, (d.subch c).WF

theorem ap_wf {d : Dmx} (h : AllWF d) (o : CbOp) : AllWF (ap d o) := by
  cases o with
  | activate n => simp only [ap]; split <;> exact h
  | deactivate n => simp only [ap]; split <;> exact h
  | init => intro c _; exact ⟨List.length_replicate, (by decide : (0 : Nat) < 320)⟩

theorem apAll_wf (os : List CbOp) : ∀ {d : Dmx}, AllWF d → AllWF (apAll d os) := by
  induction os with
  | nil => intro d h; exact h
  | cons o os ih => intro d h; exact ih (ap_wf h o)

theorem setSub_wf {d : Dmx} (h : AllWF d) {c : Nat} {s : Sch} (hs : s.WF) : AllWF (setSub d c s) := by
  intro i hi
  simp only [setSub]
  split
  · exact hs
  · exact h i hi

theorem fe_wf {U : Type} (cb : Cb U) (u : U) {d : Dmx} (h : AllWF d) {c : Nat} (hc : c < 4) (bit : Bool) :
    AllWF (fe cb u d c bit).2.1 := by
  unfold fe
  have := setSub_wf h (c := c) (stepS_wf _ bit (h c hc))
  split
  · exact this
  · exact apAll_wf _ this

theorem act_bits : ∀ (a : Byte) (n c : Fin 4), active (a ||| ((1 : Byte) <<< n.1)) c = (if c = n then true else active a c) ∧
    active (a &&& ~~~((1 : Byte) <<< n.1)) c = (if c = n then false else active a c) := by
  decide +kernel

/-- activity after one operation -/
theorem ap_act (d : Dmx) (o : CbOp) (a : Nat → Bool) (h : ∀ c < 4, active d.chanActiv c = a c) :
    ∀ c < 4, active (ap d o).chanActiv c = act1 a (.op o) c := by
  intro c hc
  cases o with
  | activate n =>
    simp only [ap, act1]
    by_cases hn : n < 4
    · have := (act_bits d.chanActiv ⟨n, hn⟩ ⟨c, hc⟩).1
      simp only [Fin.mk.injEq] at this
      rw [if_pos hn]
      simp only [this, hn, true_and, h c hc]
    · simp only [if_neg hn, hn, false_and, if_false, h c hc]
  | deactivate n =>
    simp only [ap, act1]
    by_cases hn : n < 4
    · have := (act_bits d.chanActiv ⟨n, hn⟩ ⟨c, hc⟩).2
      simp only [Fin.mk.injEq] at this
      rw [if_pos hn]
      simp only [this, h c hc]
    · simp only [if_neg hn, if_neg (show ¬ c = n by omega), h c hc]
  | init =>
    have : ∀ c : Fin 4, active 0 c = false := by decide
    exact this ⟨c, hc⟩

theorem apAll_act (os : List CbOp) : ∀ (d : Dmx) (a : Nat → Bool), (∀ c < 4, active d.chanActiv c = a c) →
    ∀ c < 4, active (apAll d os).chanActiv c = actAll a (os.map .op) c := by
  induction os with
  | nil => intro d a h c hc; exact h c hc
  | cons o os ih => intro d a h c hc; exact ih _ _ (ap_act d o a h) c hc

/-- the frames of a log are all delivered on sub-channels active at that time -/
def OkLog (a : Nat → Bool) (l : List Ent) : Prop :=
  ∀ pre c f post, l = pre ++ .frame c f :: post → c < 4 ∧ actAll a pre c = true

theorem actAll_append (a : Nat → Bool) (l m : List Ent) : actAll a (l ++ m) = actAll (actAll a l) m := by
  induction l generalizing a with
  | nil => rfl
  | cons e l ih => exact ih _

theorem okLog_append {a : Nat → Bool} {l m : List Ent} (hl : OkLog a l) (hm : OkLog (actAll a l) m) : OkLog a (l ++ m) := by
  intro pre c f post e
  rcases List.append_eq_append_iff.1 e with ⟨x, h1, h2⟩ | ⟨x, h1, h2⟩
  · have := hm x c f post h2
    rw [h1, actAll_append]
    exact this
  · cases x with
    | nil =>
      simp only [List.nil_append] at h2
      have := hm [] c f post h2.symm
      simp only [List.append_nil] at h1
      rw [← h1]; exact this
    | cons y ys =>
      simp only [List.cons_append, List.cons.injEq] at h2
      exact hl pre c f ys (by rw [h1, h2.1])

theorem okLog_nil (a : Nat → Bool) : OkLog a [] := by
  intro pre c f post e; simp at e

theorem okLog_ops (a : Nat → Bool) (os : List CbOp) : OkLog a (os.map .op) := by
  intro pre c f post e
  have : Ent.frame c f ∈ os.map Ent.op := by rw [e]; simp
  obtain ⟨o, _, h⟩ := List.mem_map.1 this
  cases h

theorem okLog_fe (a : Nat → Bool) {c : Nat} (hc : c < 4) (ha : a c = true) (f : List Byte) (os : List CbOp) :
    OkLog a (.frame c f :: os.map .op) := by
  have h1 : OkLog a [.frame c f] := by
    intro pre c' f' post e
    cases pre with
    | nil => simp only [List.nil_append, List.cons.injEq, Ent.frame.injEq] at e; rw [← e.1.1]; exact ⟨hc, ha⟩
    | cons x xs => simp at e
  exact okLog_append h1 (okLog_ops _ os)

/-- what is known of a part of the run -/
structure Part {U : Type} (a : Nat → Bool) (r : U × Dmx × List Ent) : Prop where
  wf : AllWF r.2.1
  act : ∀ c < 4, active r.2.1.chanActiv c = actAll a r.2.2 c
  log : OkLog a r.2.2

theorem fe_act {U : Type} (cb : Cb U) (u : U) (d : Dmx) (c : Nat) (bit : Bool) (a : Nat → Bool)
    (h : ∀ c < 4, active d.chanActiv c = a c) : ∀ i < 4, active (fe cb u d c bit).2.1.chanActiv i = actAll a (fe cb u d c bit).2.2 i := by
  intro i hi
  unfold fe
  split
  · exact h i hi
  · rename_i f _
    exact apAll_act (cb u c f).2 (setSub d c (stepS (d.subch c) bit).1) a h i hi

/-- a sub-channel that has just delivered a frame does not deliver another one with the next bit -/
theorem stepS_after (s : Sch) (b b' : Bool) (f : List Byte) (h : (stepS s b).2 = some f) (s' : Sch)
    (hs : s'.outIdx = 0) : (stepS s' b').2 = none := by
  unfold stepS
  simp only [hs]
  split
  · rfl
  · rw [if_neg (by omega)]

theorem setSub_self (d : Dmx) (c : Nat) (s : Sch) : (setSub d c s).subch c = s := by simp [setSub]

theorem apAll_idx (os : List CbOp) : ∀ {d : Dmx} {c : Nat}, (d.subch c).outIdx = 0 → ((apAll d os).subch c).outIdx = 0 := by
  induction os with
  | nil => intro d c h; exact h
  | cons o os ih =>
    intro d c h
    refine ih ?_
    cases o with
    | activate n => simp only [ap]; split <;> exact h
    | deactivate n => simp only [ap]; split <;> exact h
    | init => rfl

theorem stepS_idx (s : Sch) (b : Bool) (f : List Byte) (h : (stepS s b).2 = some f) : (stepS s b).1.outIdx = 0 := by
  unfold stepS at h ⊢
  simp only at h ⊢
  split
  · rename_i g; rw [if_pos g] at h; cases h
  · rename_i g
    rw [if_neg g] at h
    split
    · rfl
    · rename_i g2; rw [if_neg g2] at h; cases h

theorem demuxSub_part {U : Type} (cb : Cb U) (u : U) (d : Dmx) (inbyte : Byte) {c : Nat} (hc : c < 4) (h : AllWF d) (a : Nat → Bool)
    (ha : ∀ c < 4, active d.chanActiv c = a c) : ∃ r, demuxSub cb u d inbyte c = .ok r ∧ Part a r := by
  rw [demuxSub]
  cases hac : active d.chanActiv c with
  | false => exact ⟨_, rfl, h, ha, okLog_nil a⟩
  | true =>
    simp only [Bool.not_true, Bool.false_eq_true, if_false]
    rw [feed_eq cb u d c _ (h c hc)]
    simp only [bind_ok]
    have w1 := fe_wf cb u h hc (inbits inbyte c).1
    rw [feed_eq cb _ _ c _ (w1 c hc)]
    simp only [bind_ok]
    have a1 := fe_act cb u d c (inbits inbyte c).1 a ha
    refine ⟨_, rfl, fe_wf cb _ w1 hc _, ?_, ?_⟩
    · intro i hi
      rw [actAll_append]
      exact fe_act cb _ _ c _ _ a1 i hi
    · refine okLog_append ?_ ?_
      · unfold fe
        split
        · exact okLog_nil a
        · exact okLog_fe a hc (by rw [← ha c hc]; exact hac) _ _
      · generalize hx : fe cb u d c (inbits inbyte c).1 = x at a1 w1 ⊢
        cases h2 : (stepS (x.2.1.subch c) (inbits inbyte c).2).2 with
        | none => unfold fe; rw [h2]; exact okLog_nil _
        | some f =>
          cases h1 : (stepS (d.subch c) (inbits inbyte c).1).2 with
          | none =>
            have hx2 : x.2.2 = [] := by rw [← hx]; unfold fe; rw [h1]
            rw [hx2]
            unfold fe; rw [h2]
            exact okLog_fe a hc (by rw [← ha c hc]; exact hac) _ _
          | some f1 =>
            exfalso
            have : (x.2.1.subch c).outIdx = 0 := by
              rw [← hx]; unfold fe; rw [h1]
              refine apAll_idx _ ?_
              rw [setSub_self]
              exact stepS_idx _ _ _ h1
            rw [stepS_after _ _ _ _ h1 _ this] at h2
            cases h2

theorem demuxSubs_part {U : Type} (cb : Cb U) (inbyte : Byte) (cs : List Nat) : (∀ c ∈ cs, c < 4) → ∀ (u : U) (d : Dmx) (a : Nat → Bool),
    AllWF d → (∀ c < 4, active d.chanActiv c = a c) → ∃ r, demuxSubs cb u d inbyte cs = .ok r ∧ Part a r := by
  induction cs with
  | nil => intro _ u d a h ha; exact ⟨_, rfl, h, ha, okLog_nil a⟩
  | cons c cs ih =>
    intro h4 u d a h ha
    obtain ⟨r, hr, p⟩ := demuxSub_part cb u d inbyte (h4 c (by simp)) h a ha
    obtain ⟨r', hr', p'⟩ := ih (fun c hc => h4 c (by simp [hc])) r.1 r.2.1 (actAll a r.2.2) p.wf p.act
    refine ⟨(r'.1, r'.2.1, r.2.2 ++ r'.2.2), by rw [demuxSubs, hr]; simp only [bind_ok]; rw [hr']; rfl, p'.wf, ?_, okLog_append p.log p'.log⟩
    intro i hi
    rw [actAll_append]; exact p'.act i hi

theorem demuxIn_part {U : Type} (cb : Cb U) (bs : List Byte) : ∀ (u : U) (d : Dmx) (a : Nat → Bool),
    AllWF d → (∀ c < 4, active d.chanActiv c = a c) → ∃ r, demuxIn cb u d bs = .ok r ∧ Part a r := by
  induction bs with
  | nil => intro u d a h ha; exact ⟨_, rfl, h, ha, okLog_nil a⟩
  | cons b bs ih =>
    intro u d a h ha
    obtain ⟨r, hr, p⟩ := demuxSubs_part cb b (List.range NR_SUBCH) (by simp [NR_SUBCH]) u d a h ha
    obtain ⟨r', hr', p'⟩ := ih r.1 r.2.1 (actAll a r.2.2) p.wf p.act
    refine ⟨(r'.1, r'.2.1, r.2.2 ++ r'.2.2), by rw [demuxIn, hr]; simp only [bind_ok]; rw [hr']; rfl, p'.wf, ?_, okLog_append p.log p'.log⟩
    intro i hi
    rw [actAll_append]; exact p'.act i hi

/-! ### one sub-channel -/

/-- an operation that does not touch `c` -/
theorem ap_untouched (d : Dmx) (o : CbOp) {c : Nat} (hc : c < 4) (h : touches c (.op o) = false) :
    (ap d o).subch c = d.subch c ∧ active (ap d o).chanActiv c = active d.chanActiv c := by
  cases o with
  | activate n =>
    have hn : ¬ n = c := of_decide_eq_false h
    refine ⟨by simp only [ap]; split <;> rfl, ?_⟩
    rw [ap_act d _ (active d.chanActiv) (fun _ _ => rfl) c hc]
    simp only [act1]
    rw [if_neg (by omega)]
  | deactivate n =>
    have hn : ¬ n = c := of_decide_eq_false h
    refine ⟨by simp only [ap]; split <;> rfl, ?_⟩
    rw [ap_act d _ (active d.chanActiv) (fun _ _ => rfl) c hc]
    simp only [act1]
    rw [if_neg (by omega)]
  | init => simp [touches] at h

theorem apAll_untouched (os : List CbOp) : ∀ (d : Dmx) {c : Nat}, c < 4 → (∀ o ∈ os, touches c (.op o) = false) →
    (apAll d os).subch c = d.subch c ∧ active (apAll d os).chanActiv c = active d.chanActiv c := by
  induction os with
  | nil => intro d c _ _; exact ⟨rfl, rfl⟩
  | cons o os ih =>
    intro d c hc h
    obtain ⟨e1, e2⟩ := ap_untouched d o hc (h o (by simp))
    obtain ⟨e3, e4⟩ := ih (ap d o) hc (fun o ho => h o (by simp [ho]))
    exact ⟨e3.trans e1, e4.trans e2⟩

theorem framesOf_append (c : Nat) (l m : List Ent) : framesOf c (l ++ m) = framesOf c l ++ framesOf c m := by
  induction l with
  | nil => rfl
  | cons e l ih =>
    cases e with
    | frame i f => simp only [List.cons_append, framesOf]; split <;> simp [ih]
    | op o => simp only [List.cons_append, framesOf, ih]

theorem framesOf_ops (c : Nat) (os : List CbOp) : framesOf c (os.map .op) = [] := by
  induction os with
  | nil => rfl
  | cons o os ih => exact ih

/-- the effect on sub-channel `c` of a part that does not touch it otherwise -/
structure Own {U : Type} (c : Nat) (d : Dmx) (bits : List Bool) (r : U × Dmx × List Ent) : Prop where
  sub : r.2.1.subch c = if active d.chanActiv c then (runS (d.subch c) bits).1 else d.subch c
  act : active r.2.1.chanActiv c = active d.chanActiv c
  ev : framesOf c r.2.2 = if active d.chanActiv c then (runS (d.subch c) bits).2 else []

theorem fe_other {U : Type} (cb : Cb U) (u : U) (d : Dmx) {c i : Nat} (hi : i < 4) (hne : i ≠ c) (bit : Bool)
    (ht : ∀ e ∈ (fe cb u d c bit).2.2, touches i e = false) :
    (fe cb u d c bit).2.1.subch i = d.subch i ∧ active (fe cb u d c bit).2.1.chanActiv i = active d.chanActiv i ∧
      framesOf i (fe cb u d c bit).2.2 = [] := by
  unfold fe at ht ⊢
  split
  · exact ⟨by simp [setSub, hne], rfl, rfl⟩
  · rename_i f hf
    rw [hf] at ht
    simp only at ht
    obtain ⟨e1, e2⟩ := apAll_untouched (cb u c f).2 (setSub d c (stepS (d.subch c) bit).1) hi
      (fun o ho => ht (.op o) (by simp [ho]))
    refine ⟨by rw [e1]; simp [setSub, hne], by rw [e2]; rfl, ?_⟩
    simp only [framesOf]
    rw [if_neg (Ne.symm hne), framesOf_ops]

theorem fe_self {U : Type} (cb : Cb U) (u : U) (d : Dmx) {c : Nat} (hc : c < 4) (bit : Bool)
    (ht : ∀ e ∈ (fe cb u d c bit).2.2, touches c e = false) :
    (fe cb u d c bit).2.1.subch c = (stepS (d.subch c) bit).1 ∧ active (fe cb u d c bit).2.1.chanActiv c = active d.chanActiv c ∧
      framesOf c (fe cb u d c bit).2.2 = (stepS (d.subch c) bit).2.toList := by
  unfold fe at ht ⊢
  split
  · rename_i hf; exact ⟨by simp [setSub], rfl, by simp [framesOf, hf]⟩
  · rename_i f hf
    rw [hf] at ht
    simp only at ht
    obtain ⟨e1, e2⟩ := apAll_untouched (cb u c f).2 (setSub d c (stepS (d.subch c) bit).1) hc
      (fun o ho => ht (.op o) (by simp [ho]))
    refine ⟨by rw [e1]; simp [setSub], by rw [e2]; rfl, ?_⟩
    simp only [framesOf]
    rw [if_true, framesOf_ops, hf]; rfl

theorem demuxSub_own {U : Type} (cb : Cb U) (u : U) (d : Dmx) (inbyte : Byte) {c i : Nat} (hc : c < 4) (hi : i < 4) (h : AllWF d)
    (r : U × Dmx × List Ent) (hr : demuxSub cb u d inbyte c = .ok r) (ht : ∀ e ∈ r.2.2, touches i e = false) :
    Own i d (if i = c then chanBits i [inbyte] else []) r := by
  rw [demuxSub] at hr
  cases hac : active d.chanActiv c with
  | false =>
    rw [hac] at hr
    simp only [Bool.not_false, if_true] at hr
    have e := Except.ok.inj hr
    subst e
    by_cases he : i = c
    · subst he
      exact ⟨by rw [hac]; rfl, rfl, by rw [hac]; rfl⟩
    · rw [if_neg he]
      exact ⟨by simp [runS], rfl, by simp [runS, framesOf]⟩
  | true =>
    rw [hac] at hr
    simp only [Bool.not_true, Bool.false_eq_true, if_false] at hr
    rw [feed_eq cb u d c _ (h c hc)] at hr
    simp only [bind_ok] at hr
    have w1 := fe_wf cb u h hc (inbits inbyte c).1
    rw [feed_eq cb _ _ c _ (w1 c hc)] at hr
    simp only [bind_ok] at hr
    have e := Except.ok.inj hr
    generalize hx : fe cb u d c (inbits inbyte c).1 = x at e w1
    subst e
    have ht1 : ∀ e ∈ x.2.2, touches i e = false := fun e he => ht e (List.mem_append.2 (.inl he))
    have ht2 : ∀ e ∈ (fe cb x.1 x.2.1 c (inbits inbyte c).2).2.2, touches i e = false := fun e he => ht e (List.mem_append.2 (.inr he))
    by_cases he : i = c
    · subst he
      rw [if_pos rfl]
      have g1 := fe_self cb u d hi (inbits inbyte i).1 (by rw [hx]; exact ht1)
      rw [hx] at g1
      have g2 := fe_self cb x.1 x.2.1 hi (inbits inbyte i).2 ht2
      rw [g1.1, g1.2.1] at g2
      have hcb : chanBits i [inbyte] = [(inbits inbyte i).1, (inbits inbyte i).2] := by
        rw [inbits_eq inbyte i hi]; simp [chanBits]
      refine ⟨?_, g2.2.1, ?_⟩
      · simp only [g2.1, hac, if_true, hcb, runS]
      · rw [framesOf_append, g1.2.2, g2.2.2, hac, if_pos rfl, hcb]
        simp only [runS, List.append_nil]
    · rw [if_neg he]
      have g1 := fe_other cb u d hi he (inbits inbyte c).1 (by rw [hx]; exact ht1)
      rw [hx] at g1
      have g2 := fe_other cb x.1 x.2.1 hi he (inbits inbyte c).2 ht2
      rw [g1.1, g1.2.1] at g2
      refine ⟨?_, g2.2.1, ?_⟩
      · simp only [g2.1, runS, ite_self]
      · rw [framesOf_append, g1.2.2, g2.2.2]; simp [runS]

theorem own_trans {U : Type} {c : Nat} {d : Dmx} {b1 b2 : List Bool} {r r' : U × Dmx × List Ent} (h1 : Own c d b1 r) (h2 : Own c r.2.1 b2 r') :
    Own c d (b1 ++ b2) (r'.1, r'.2.1, r.2.2 ++ r'.2.2) := by
  obtain ⟨s1, a1, e1⟩ := h1
  obtain ⟨s2, a2, e2⟩ := h2
  rw [a1, s1] at s2
  rw [a1, s1] at e2
  refine ⟨?_, a2.trans a1, ?_⟩
  · simp only [s2, runS_append]; split <;> rfl
  · simp only [framesOf_append, e1, e2, runS_append]; split <;> rfl

theorem demuxSubs_own {U : Type} (cb : Cb U) (inbyte : Byte) {i : Nat} (hi : i < 4) (cs : List Nat) : (∀ c ∈ cs, c < 4) → cs.Nodup →
    ∀ (u : U) (d : Dmx), AllWF d → ∀ r, demuxSubs cb u d inbyte cs = .ok r → (∀ e ∈ r.2.2, touches i e = false) →
    Own i d (if i ∈ cs then chanBits i [inbyte] else []) r := by
  induction cs with
  | nil =>
    intro _ _ u d h r hr _
    have e := Except.ok.inj hr
    subst e
    exact ⟨by simp [runS], rfl, by simp [runS, framesOf]⟩
  | cons c cs ih =>
    intro h4 hn u d h r hr ht
    obtain ⟨r1, hr1, p⟩ := demuxSub_part cb u d inbyte (h4 c (by simp)) h (active d.chanActiv) (fun _ _ => rfl)
    obtain ⟨r2, hr2, p2⟩ := demuxSubs_part cb inbyte cs (fun c hc => h4 c (by simp [hc])) r1.1 r1.2.1 _ p.wf p.act
    rw [demuxSubs, hr1] at hr
    simp only [bind_ok] at hr
    rw [hr2] at hr
    have e := Except.ok.inj hr
    subst e
    have o1 := demuxSub_own cb u d inbyte (h4 c (by simp)) hi h r1 hr1 (fun e he => ht e (List.mem_append.2 (.inl he)))
    have o2 := ih (fun c hc => h4 c (by simp [hc])) (List.nodup_cons.1 hn).2 r1.1 r1.2.1 p.wf r2 hr2
      (fun e he => ht e (List.mem_append.2 (.inr he)))
    have := own_trans o1 o2
    have hb : (if i = c then chanBits i [inbyte] else []) ++ (if i ∈ cs then chanBits i [inbyte] else []) =
        if i ∈ c :: cs then chanBits i [inbyte] else [] := by
      by_cases he : i = c
      · subst he
        rw [if_pos rfl, if_neg (List.nodup_cons.1 hn).1, if_pos (by simp), List.append_nil]
      · rw [if_neg he]
        simp only [List.nil_append, List.mem_cons, he, false_or]
    rw [hb] at this
    exact this

theorem demuxIn_own {U : Type} (cb : Cb U) {i : Nat} (hi : i < 4) (bs : List Byte) :
    ∀ (u : U) (d : Dmx), AllWF d → ∀ r, demuxIn cb u d bs = .ok r → (∀ e ∈ r.2.2, touches i e = false) →
    Own i d (chanBits i bs) r := by
  induction bs with
  | nil =>
    intro u d h r hr _
    have e := Except.ok.inj hr
    subst e
    exact ⟨by simp [runS, chanBits], rfl, by simp [runS, framesOf, chanBits]⟩
  | cons b bs ih =>
    intro u d h r hr ht
    obtain ⟨r1, hr1, p⟩ := demuxSubs_part cb b (List.range NR_SUBCH) (by simp [NR_SUBCH]) u d (active d.chanActiv) h (fun _ _ => rfl)
    obtain ⟨r2, hr2, p2⟩ := demuxIn_part cb bs r1.1 r1.2.1 _ p.wf p.act
    rw [demuxIn, hr1] at hr
    simp only [bind_ok] at hr
    rw [hr2] at hr
    have e := Except.ok.inj hr
    subst e
    have o1 := demuxSubs_own cb b hi (List.range NR_SUBCH) (by simp [NR_SUBCH]) List.nodup_range u d h r1 hr1
      (fun e he => ht e (List.mem_append.2 (.inl he)))
    have o2 := ih r1.1 r1.2.1 p.wf r2 hr2 (fun e he => ht e (List.mem_append.2 (.inr he)))
    rw [if_pos (by simp [NR_SUBCH, hi])] at o1
    have hcb : chanBits i (b :: bs) = chanBits i [b] ++ chanBits i bs := by simp [chanBits]
    rw [hcb]
    exact own_trans o1 o2

/-! ### quality of frames -/

def AllInv (d : Dmx) : Prop := ∀ c < 4, (d.subch c).Inv

theorem fe_inv {U : Type} (cb : Cb U) (u : U) {d : Dmx} (h : AllInv d) {c : Nat} (hc : c < 4) (bit : Bool)
    (hn : ∀ o, .op o ∈ (fe cb u d c bit).2.2 → o ≠ .init) :
    AllInv (fe cb u d c bit).2.1 ∧ ∀ i f, .frame i f ∈ (fe cb u d c bit).2.2 → f.length = 320 ∧ f.take 17 = hdr17 ∧ ∀ x ∈ f, x = 0 ∨ x = 1 := by
  have hs := stepS_inv _ bit (h c hc)
  have h1 : AllInv (setSub d c (stepS (d.subch c) bit).1) := by
    intro i hi
    simp only [setSub]
    split
    · exact hs.1
    · exact h i hi
  have key : ∀ (os : List CbOp) (d : Dmx), AllInv d → (∀ o ∈ os, o ≠ .init) → AllInv (apAll d os) := by
    intro os
    induction os with
    | nil => intro d h _; exact h
    | cons o os ih =>
      intro d h ho
      refine ih _ ?_ (fun o' h' => ho o' (by simp [h']))
      cases o with
      | activate n => simp only [ap]; split <;> exact h
      | deactivate n => simp only [ap]; split <;> exact h
      | init => exact absurd rfl (ho .init (by simp))
  unfold fe at hn ⊢
  split
  · exact ⟨h1, by simp⟩
  · rename_i f hf
    rw [hf] at hn
    simp only at hn
    refine ⟨key _ _ h1 (fun o ho => hn o (by simp [ho])), ?_⟩
    intro i g hg
    simp only [List.mem_cons, List.mem_map] at hg
    rcases hg with hg | ⟨o, _, hg⟩
    · cases hg; exact hs.2 f hf
    · cases hg

def Good (l : List Ent) : Prop := ∀ i f, .frame i f ∈ l → f.length = 320 ∧ f.take 17 = hdr17 ∧ ∀ x ∈ f, x = 0 ∨ x = 1

theorem good_append {l m : List Ent} (h1 : Good l) (h2 : Good m) : Good (l ++ m) := by
  intro i f h
  rcases List.mem_append.1 h with h | h
  · exact h1 i f h
  · exact h2 i f h

theorem demuxSub_inv {U : Type} (cb : Cb U) (u : U) {d : Dmx} (h : AllInv d) (inbyte : Byte) {c : Nat} (hc : c < 4) (r : U × Dmx × List Ent)
    (hr : demuxSub cb u d inbyte c = .ok r) (hn : ∀ o, .op o ∈ r.2.2 → o ≠ .init) : AllInv r.2.1 ∧ Good r.2.2 := by
  have hw : ∀ {d : Dmx}, AllInv d → AllWF d := fun h c hc => (h c hc).toWF
  rw [demuxSub] at hr
  split at hr
  · cases hr; exact ⟨h, by intro i f hf; cases hf⟩
  · simp only at hr
    rw [feed_eq cb u d c _ (hw h c hc)] at hr
    simp only [bind_ok] at hr
    have w1 := fe_wf cb u (hw h) hc (inbits inbyte c).1
    rw [feed_eq cb _ _ c _ (w1 c hc)] at hr
    simp only [bind_ok] at hr
    have e := Except.ok.inj hr
    generalize hx : fe cb u d c (inbits inbyte c).1 = x at e w1
    subst e
    have g1 := fe_inv cb u h hc (inbits inbyte c).1 (by rw [hx]; exact fun o ho => hn o (List.mem_append.2 (.inl ho)))
    rw [hx] at g1
    have g2 := fe_inv cb x.1 g1.1 hc (inbits inbyte c).2 (fun o ho => hn o (List.mem_append.2 (.inr ho)))
    exact ⟨g2.1, good_append g1.2 g2.2⟩

theorem demuxSubs_inv {U : Type} (cb : Cb U) (inbyte : Byte) (cs : List Nat) : (∀ c ∈ cs, c < 4) → ∀ (u : U) (d : Dmx), AllInv d →
    ∀ r, demuxSubs cb u d inbyte cs = .ok r → (∀ o, .op o ∈ r.2.2 → o ≠ .init) → AllInv r.2.1 ∧ Good r.2.2 := by
  induction cs with
  | nil => intro _ u d h r hr _; cases hr; exact ⟨h, by intro i f hf; cases hf⟩
  | cons c cs ih =>
    intro h4 u d h r hr hn
    rw [demuxSubs] at hr
    cases hr1 : demuxSub cb u d inbyte c with
    | error e => rw [hr1] at hr; cases hr
    | ok r1 =>
      rw [hr1] at hr
      simp only [bind_ok] at hr
      cases hr2 : demuxSubs cb r1.1 r1.2.1 inbyte cs with
      | error e => rw [hr2] at hr; cases hr
      | ok r2 =>
        rw [hr2] at hr
        have e := Except.ok.inj hr
        subst e
        have g1 := demuxSub_inv cb u h inbyte (h4 c (by simp)) r1 hr1 (fun o ho => hn o (List.mem_append.2 (.inl ho)))
        have g2 := ih (fun c hc => h4 c (by simp [hc])) r1.1 r1.2.1 g1.1 r2 hr2 (fun o ho => hn o (List.mem_append.2 (.inr ho)))
        exact ⟨g2.1, good_append g1.2 g2.2⟩

theorem demuxIn_inv {U : Type} (cb : Cb U) (bs : List Byte) : ∀ (u : U) (d : Dmx), AllInv d →
    ∀ r, demuxIn cb u d bs = .ok r → (∀ o, .op o ∈ r.2.2 → o ≠ .init) → AllInv r.2.1 ∧ Good r.2.2 := by
  induction bs with
  | nil => intro u d h r hr _; cases hr; exact ⟨h, by intro i f hf; cases hf⟩
  | cons b bs ih =>
    intro u d h r hr hn
    rw [demuxIn] at hr
    cases hr1 : demuxSubs cb u d b (List.range NR_SUBCH) with
    | error e => rw [hr1] at hr; cases hr
    | ok r1 =>
      rw [hr1] at hr
      simp only [bind_ok] at hr
      cases hr2 : demuxIn cb r1.1 r1.2.1 bs with
      | error e => rw [hr2] at hr; cases hr
      | ok r2 =>
        rw [hr2] at hr
        have e := Except.ok.inj hr
        subst e
        have g1 := demuxSubs_inv cb b (List.range NR_SUBCH) (by simp [NR_SUBCH]) u d h r1 hr1 (fun o ho => hn o (List.mem_append.2 (.inl ho)))
        have g2 := ih r1.1 r1.2.1 g1.1 r2 hr2 (fun o ho => hn o (List.mem_append.2 (.inr ho)))
        exact ⟨g2.1, good_append g1.2 g2.2⟩

end Verif.Demux.Re
