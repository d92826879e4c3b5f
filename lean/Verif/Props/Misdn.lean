import Verif.Proof.MisdnLink
/-!
# Properties of the mISDN driver (C143-C150)
-/
set_option maxRecDepth 10000
namespace Verif.Misdn

/-- what is looked at in a run that is evaluated: the actions, a time slot of line 0 -/
def look (t : Nat) (r : M (W × Acts)) : Except Fault (Acts × Slot) := r.map (fun p => (p.2, p.1.s 0 t))

theorem look_ok {t : Nat} {r : M (W × Acts)} {a : Acts} {s : Slot} (h : look t r = .ok (a, s)) : ∃ w, r = .ok (w, a) ∧ w.s 0 t = s := by
  cases r with
  | error e => cases h
  | ok p => obtain ⟨w, b⟩ := p; cases h; exact ⟨w, rfl, rfl⟩

theorem look_error {t : Nat} {r : M (W × Acts)} {f : Fault} (h : look t r = .error f) : r = .error f := by
  cases r with
  | error e => cases h; rfl
  | ok p => cases h

/-- a kernel on which everything succeeds; the descriptor of time slot `t` is `t + 100`, that of the D-channel 100 -/
def card : Env := ⟨fun _ => none, fun _ => (100, true), fun _ t => ⟨t + 100, true, true, true⟩⟩

theorem card_ok : NotStdin card ∧ Errors card ∧ Works card := by
  refine ⟨⟨?_, ?_⟩, ?_, ?_, ?_⟩
  · intro n t; show ((t : Int) + 100) ≠ 0; omega
  · intro n; show (100 : Int) ≠ 0; decide
  · intro n r e; cases e
  · intro n; exact ⟨rfl, by show (0 : Int) < 100; decide, rfl⟩
  · intro t n; exact ⟨by show (0 : Int) < (t : Int) + 100; omega, rfl, rfl, rfl⟩

/-- an event: octets are received, from an address -/
def got (d : List Byte) (tei : Nat := 0) (sapi : Nat := 0) (chan : Nat := 0) : Ev := ⟨true, false, some d, true, tei, sapi, chan, fun _ => 0, 0⟩
/-- an event: the descriptor can be written, `n` is the result of sending -/
def writable (n : Int) : Ev := ⟨false, true, none, true, 0, 0, 0, fun _ => 0, n⟩

/-! ### C143 -/

/-- C143: in every history, the signals of a line are coherent: after each change of loss of signal, alarm indication signal and remote alarm indication, an alarm is signalled exactly if it is the first one
to appear, its end exactly if it was the last one to go, at once and never at another time -/
theorem C143_coherent {E : Env} {ul : Nat → Bool} {ops : List Op} {w : W} {a : Acts} (h : run E (init ul) ops = .ok (w, a)) (l : Nat) : Coherent (false, false, false) none (signals l a) :=
  (run_coh l ops h).1

theorem coh_alt : ∀ (ss : List Sig) (st : Bool × Bool × Bool) (due : Option Sig) (b : Bool), Coherent st due ss →
    (due = none → b = anyAlarm st) → (due = some .alarm → b = false ∧ anyAlarm st = true) → (due = some .noalarm → b = true ∧ anyAlarm st = false) →
    (due = none ∨ due = some .alarm ∨ due = some .noalarm) → Alternates b ss (anyAlarm (ss.foldl after st)) := by
  intro ss
  induction ss with
  | nil => intro st due b h h1 _ _ _; exact h1 h
  | cons x ss ih =>
    intro st due b h h1 h2 h3 h4
    have key : ∀ st', due = none → Coherent st' (if anyAlarm st = false ∧ anyAlarm st' = true then some .alarm else if anyAlarm st = true ∧ anyAlarm st' = false then some .noalarm else none) ss →
        Alternates b ss (anyAlarm (ss.foldl after st')) := by
      intro st' hd g
      have hb := h1 hd
      refine ih st' _ b g ?_ ?_ ?_ ?_
      · intro e; rw [hb]; cases g1 : anyAlarm st <;> cases g2 : anyAlarm st' <;> simp [g1, g2] at e ⊢
      · intro e; rw [hb]; cases g1 : anyAlarm st <;> cases g2 : anyAlarm st' <;> simp [g1, g2] at e ⊢
      · intro e; rw [hb]; cases g1 : anyAlarm st <;> cases g2 : anyAlarm st' <;> simp [g1, g2] at e ⊢
      · cases g1 : anyAlarm st <;> cases g2 : anyAlarm st' <;> simp
    cases x with
    | alarm =>
      obtain ⟨hd, g⟩ := h
      obtain ⟨e1, e2⟩ := h2 hd
      exact ⟨e1, ih st none true g (fun _ => e2.symm) (by intro e; cases e) (by intro e; cases e) (.inl rfl)⟩
    | noalarm =>
      obtain ⟨hd, g⟩ := h
      obtain ⟨e1, e2⟩ := h3 hd
      exact ⟨e1, ih st none false g (fun _ => e2.symm) (by intro e; cases e) (by intro e; cases e) (.inl rfl)⟩
    | los => exact key _ h.1 h.2
    | nolos => exact key _ h.1 h.2
    | ais => exact key _ h.1 h.2
    | noais => exact key _ h.1 h.2
    | rai => exact key _ h.1 h.2
    | norai => exact key _ h.1 h.2
    | sa b' => exact key _ h.1 h.2

/-- C143: alarm and end of alarm alternate, beginning with an alarm, and after each history the line is in the state of alarm exactly if one of the three conditions, as last signalled, is present -/
theorem C143_alternate {E : Env} {ul : Nat → Bool} {ops : List Op} {w : W} {a : Acts} (h : run E (init ul) ops = .ok (w, a)) (l : Nat) :
    Alternates false (signals l a) (anyAlarm ((signals l a).foldl after (false, false, false))) :=
  coh_alt (signals l a) (false, false, false) none false (C143_coherent h l) (fun _ => rfl) (by intro e; cases e) (by intro e; cases e) (.inl rfl)

theorem mph_means (x : Line) (i : Nat) : (∃ sg, Means i sg ∧ (sigs (mph x i).2).head? = some sg) ∨ (¬ (∃ sg, Means i sg) ∧ sigs (mph x i).2 = []) := by
  unfold mph
  by_cases h0 : i / 256 = 1
  · rw [if_pos h0]
    left
    refine ⟨.sa (i % 256), ?_, rfl⟩
    have : i = 256 + i % 256 := by omega
    have k := Means.sa (i % 256) (by omega)
    rw [← this] at k; exact k
  · rw [if_neg h0]
    by_cases h1 : i = 0x10
    · rw [if_pos h1]; subst h1; exact .inl ⟨_, .losOff, rfl⟩
    · rw [if_neg h1]
      by_cases h2 : i = 0x11
      · rw [if_pos h2]; subst h2; exact .inl ⟨_, .losOn, rfl⟩
      · rw [if_neg h2]
        by_cases h3 : i = 0x12
        · rw [if_pos h3]; subst h3; exact .inl ⟨_, .aisOff, rfl⟩
        · rw [if_neg h3]
          by_cases h4 : i = 0x13
          · rw [if_pos h4]; subst h4; exact .inl ⟨_, .aisOn, rfl⟩
          · rw [if_neg h4]
            by_cases h5 : i = 0x14
            · rw [if_pos h5]; subst h5; exact .inl ⟨_, .rdiOff, rfl⟩
            · rw [if_neg h5]
              by_cases h6 : i = 0x15
              · rw [if_pos h6]; subst h6; exact .inl ⟨_, .rdiOn, rfl⟩
              · rw [if_neg h6]
                right
                refine ⟨?_, rfl⟩
                rintro ⟨sg, hm⟩
                cases hm with
                | sa b hb => exact h0 (by omega)
                | _ => first | exact h1 rfl | exact h2 rfl | exact h3 rfl | exact h4 rfl | exact h5 rfl | exact h6 rfl

theorem evWrite_sigs {ul b : Bool} {s s' : Slot} {e : Ev} {a : List Act} (h : optW b s (fun s => evWrite ul s e) = .ok (s', a)) : sigs a = [] := by
  unfold optW at h
  split at h
  · simp only [evWrite] at h
    have hb : ∀ f, bWrite f s e = .ok (s', a) → sigs a = [] := by
      intro f h
      unfold bWrite at h
      split at h
      · cases h; rfl
      · split at h
        · cases h; rfl
        · rename_i m q _
          cases hp : push { m with d := m.d.map f } (head PH_DATA_REQ 0) with
          | error f => rw [hp] at h; cases h
          | ok d => rw [hp] at h; cases h; rfl
    cases ht : s.ty <;> simp only [ht] at h
    case sign =>
      unfold signWrite at h
      split at h
      · cases h; rfl
      · rename_i m q _
        split at h
        · split at h
          · cases h; rfl
          · cases h
        · cases hp : push m (head DL_DATA_REQ 0) with
          | error f => rw [hp] at h; cases h
          | ok d => rw [hp] at h; cases h; rfl
    case raw => exact hb _ h
    case hdlc => exact hb _ h
    all_goals (cases h; rfl)
  · cases h; rfl

theorem evRead_sigs {ul : Bool} {x x' : Line} {s s' : Slot} {e : Ev} {a : List Act} (hr : e.rd = true) (h : evRead ul x s e = .ok (x', s', a)) :
    (indicated s e = none ∧ sigs a = []) ∨ ∃ i, indicated s e = some i ∧ a = (mph x i).2 := by
  unfold evRead at h
  cases ht : s.ty <;> simp only [ht] at h
  case none => cases h; left; simp [indicated, ht, sigs]
  case i460 => cases h; left; simp [indicated, ht, sigs]
  case trau =>
    left
    refine ⟨by simp [indicated, ht], ?_⟩
    unfold trauRead at h
    split at h
    · cases h; rfl
    · split at h
      · split at h
        · cases h
        · cases h; rfl
      · cases h; rfl
  case raw =>
    left
    refine ⟨by simp [indicated, ht], ?_⟩
    unfold rawRead at h
    split at h
    · cases h; rfl
    · split at h
      · split at h
        · cases h
        · cases h; rfl
      · split at h <;> cases h <;> rfl
  case hdlc =>
    unfold hdlcRead at h
    cases hd : e.data with
    | none => rw [hd] at h; cases h; left; simp [indicated, hd, sigs]
    | some d =>
      rw [hd] at h
      simp only [Option.map_some] at h
      rw [rd32_take _ _ _ (by decide)] at h
      by_cases hm : rd32 d 0 = MPH_INFORMATION_IND
      · right
        refine ⟨rd32 d 8, by simp [indicated, hd, hr, ht, show rd32 d 0 = 1794 from hm], ?_⟩
        rw [if_neg (by rw [hm]; decide), if_neg (by rw [hm]; decide), if_pos hm] at h
        simp only [mphInd] at h
        rw [rd32_take _ _ _ (by decide)] at h
        injection h with h
        have := congrArg (fun z => z.2.2) h
        exact this.symm
      · left
        refine ⟨by simp [indicated, hd, hr, ht, show ¬ rd32 d 0 = 1794 from hm], ?_⟩
        split at h
        · split at h
          · cases h
          · cases h; rfl
        · split at h
          · cases h; rfl
          · cases h; rfl
  case sign =>
    unfold signRead at h
    cases hd : e.data with
    | none => rw [hd] at h; cases h; left; simp [indicated, hd, sigs]
    | some d =>
      rw [hd] at h
      simp only [Option.map_some] at h
      rw [rd32_take _ _ _ (by decide)] at h
      by_cases ha : e.addr = false
      · rw [if_pos ha] at h; cases h; left; simp [indicated, ha, ht, sigs]
      · have ha' : e.addr = true := by cases hx : e.addr <;> simp [hx] at ha ⊢
        rw [if_neg ha] at h
        by_cases hm : rd32 d 0 = MPH_INFORMATION_IND
        · right
          refine ⟨rd32 d 8, by simp [indicated, hd, hr, ht, show rd32 d 0 = 1794 from hm, ha'], ?_⟩
          rw [if_neg (by rw [hm]; decide), if_neg (by rw [hm]; decide), if_neg (by rw [hm]; decide), if_neg (by rw [hm]; decide), if_neg (by rw [hm]; decide), if_pos hm] at h
          simp only [mphInd] at h
          rw [rd32_take _ _ _ (by decide)] at h
          injection h with h
          have := congrArg (fun z => z.2.2) h
          exact this.symm
        · left
          refine ⟨by simp [indicated, hd, hr, ht, show ¬ rd32 d 0 = 1794 from hm], ?_⟩
          split at h
          · cases h; rfl
          · split at h
            · unfold dlEst at h; split at h <;> cases h <;> rfl
            · split at h
              · unfold dlRel at h; split at h <;> cases h <;> rfl
              · split at h
                · unfold dlData at h
                  split at h
                  · cases h
                  · split at h
                    · cases h; rfl
                    · split at h <;> cases h <;> rfl
                · split at h
                  · unfold phData at h
                    split at h
                    · cases h; rfl
                    · split at h
                      · cases h
                      · split at h
                        · cases h; rfl
                        · cases h
                  · cases h; rfl

/-- C143: signals are caused by indications of the kernel only: each of them causes the signal it means (and by `C143_coherent` none but those of the alarm that follow from it), unknown ones cause none -/
theorem C143_indication_exact {ul : Bool} {x x' : Line} {s s' : Slot} {e : Ev} {a : List Act} (h : fdCb ul x s e = .ok (x', s', a)) (l t : Nat) :
    (indicated s e = none → signals l (tag l t a) = []) ∧
      (∀ i, indicated s e = some i → (∃ sg, Means i sg ∧ (signals l (tag l t a)).head? = some sg) ∨ (¬ (∃ sg, Means i sg) ∧ signals l (tag l t a) = [])) := by
  obtain ⟨s1, a1, a2, h1, h2, rfl⟩ := fdCb_inv h
  have e2 := evWrite_sigs h2
  rw [signals_tag, if_pos rfl, sigs_append, e2, List.append_nil]
  unfold optR at h1
  by_cases hr : e.rd = true
  · rw [if_pos hr] at h1
    rcases evRead_sigs hr h1 with ⟨k1, k2⟩ | ⟨i, k1, k2⟩
    · exact ⟨fun _ => k2, (by intro i g; rw [k1] at g; cases g)⟩
    · refine ⟨(by intro g; rw [k1] at g; cases g), ?_⟩
      intro j g
      rw [k1] at g
      cases g
      rw [k2]; exact mph_means x i
  · rw [if_neg hr] at h1
    cases h1
    have : indicated s e = none := by unfold indicated; rw [if_neg (fun g => hr g.1)]
    exact ⟨fun _ => rfl, (by intro i g; rw [this] at g; cases g)⟩

/-- C143: the same indication means only one signal -/
theorem C143_means_unique {i : Nat} {a b : Sig} (h : Means i a) (g : Means i b) : a = b := by
  have k : ∀ {i a}, Means i a → (i = 0x10 ∧ a = .nolos) ∨ (i = 0x11 ∧ a = .los) ∨ (i = 0x12 ∧ a = .noais) ∨ (i = 0x13 ∧ a = .ais) ∨ (i = 0x14 ∧ a = .norai) ∨ (i = 0x15 ∧ a = .rai) ∨
      (∃ b, i = 256 + b ∧ a = .sa b) := by
    intro i a h
    cases h <;> simp
  rcases k h with ⟨h, rfl⟩ | ⟨h, rfl⟩ | ⟨h, rfl⟩ | ⟨h, rfl⟩ | ⟨h, rfl⟩ | ⟨h, rfl⟩ | ⟨x, h, rfl⟩ <;>
    rcases k g with ⟨g, rfl⟩ | ⟨g, rfl⟩ | ⟨g, rfl⟩ | ⟨g, rfl⟩ | ⟨g, rfl⟩ | ⟨g, rfl⟩ | ⟨y, g, rfl⟩ <;>
    first | rfl | (exfalso; omega) | (have : x = y := by omega
                                      rw [this])

/-- the 12 octets of an indication -/
def mphFrame (i : Nat) : List Byte := head 0x0702 0 ++ wr32 i

example : look 16 (run card (init fun _ => false) [.config 0 16 .hdlc, .update 0, .event 0 16 (got (mphFrame 0x11)), .event 0 16 (got (mphFrame 0x13)), .event 0 16 (got (mphFrame 0x10)),
      .event 0 16 (got (mphFrame 0x12)), .event 0 16 (got (mphFrame 0x1a5)), .event 0 16 (got (mphFrame 0x99))]) =
    .ok ([((0, 16), .socket .ntE1 116), ((0, 16), .bind 116 0 0), ((0, 16), .activate 116), ((0, 16), .signal .los), ((0, 16), .signal .alarm), ((0, 16), .signal .ais), ((0, 16), .signal .nolos),
      ((0, 16), .signal .noais), ((0, 16), .signal .noalarm), ((0, 16), .signal (.sa 0xa5))], ⟨.hdlc, .hdlc, 116, true, false, false, false, false, [], []⟩) := by decide +kernel

/-! ### C144 -/

/-- C144: in every history in which the kernel never returns descriptor 0, no line is freed and no Sa bits are sent, the sockets of each time slot and of the D-channel are opened only when none is open, only an open
socket is bound, activated, written or closed, and the socket that is open afterwards is the one that is remembered; a descriptor the select loop watches is open -/
theorem C144_descriptors_partial {E : Env} (hE : NotStdin E) (hR : Errors E) {ul : Nat → Bool} {ops : List Op} {w : W} {a : Acts} (ho : Sane ops) (h : run E (init ul) ops = .ok (w, a)) (l : Nat) :
    (∀ t, 1 ≤ t → Balanced 0 (ofSlot l t a) (openFd (w.s l t).fd)) ∧ Balanced 0 (ofSlot l 0 a) (openFd (w.line l).dummy) ∧ ∀ t, (w.s l t).reg = true → 0 < (w.s l t).fd := by
  have k := run_ok hE hR ops (init_rinv ul) ho h
  exact ⟨fun t g => k.bal l t g, k.dch l, fun t => (k.inv.inv.slot l t).reg⟩

/-- a kernel that returns the descriptor 0 for time slot 1 -/
def stdin : Env := ⟨fun _ => none, fun _ => (100, true), fun _ t => ⟨if t = 1 then 0 else t + 100, true, true, true⟩⟩

/-- C144: if the standard input of the program is closed, a socket gets descriptor 0, and it is not closed when the time slot is no longer used -/
theorem C144_stdin_violated : ∃ w a, run stdin (init fun _ => false) [.config 0 1 .raw, .update 0, .config 0 1 .none, .update 0] = .ok (w, a) ∧
    ofSlot 0 1 a = [.socket .bRaw 0, .bind 0 0 1, .activate 0] ∧ (w.s 0 1).ty = .none := by
  have k : look 1 (run stdin (init fun _ => false) [.config 0 1 .raw, .update 0, .config 0 1 .none, .update 0]) =
      .ok ([((0, 1), .socket .bRaw 0), ((0, 1), .bind 0 0 1), ((0, 1), .activate 0)], ⟨.none, .none, 0, false, false, false, false, false, [], []⟩) := by decide +kernel
  obtain ⟨w, e, g⟩ := look_ok k
  exact ⟨w, _, e, rfl, by rw [g]⟩

/-- C144: a line that is freed is still used: its descriptors are not unregistered -/
theorem C144_release_violated : run card (init fun _ => false) [.config 0 1 .raw, .update 0, .release 0, .event 0 1 (got (head 0x2002 0))] = .error .badptr :=
  look_error (t := 1) (by decide +kernel)

example : Sane [.config 0 1 .raw, .update 0, .config 0 1 .sign, .update 0, .config 0 1 .none, .update 0] ∧
    look 1 (run card (init fun _ => true) [.config 0 1 .raw, .update 0, .config 0 1 .sign, .update 0, .config 0 1 .none, .update 0]) =
    .ok ([((0, 1), .socket .bRaw 101), ((0, 1), .bind 101 0 1), ((0, 1), .activate 101), ((0, 0), .socket .ntE1 100), ((0, 0), .bind 100 0 0), ((0, 1), .closed 101), ((0, 1), .socket .bHdlc 101),
      ((0, 1), .bind 101 0 1), ((0, 1), .activate 101), ((0, 0), .closed 100), ((0, 1), .closed 101)], ⟨.none, .none, 0, false, false, false, false, false, [], []⟩) :=
  ⟨by intro op m; simp at m; rcases m with m | m | m | m | m | m <;> subst m <;> exact ⟨(by intro l e; cases e), (by intro l b n e; cases e)⟩, by decide +kernel⟩

/-! ### C145 -/

/-- C145: a line update that returns 0 leaves each time slot (for which no request has failed) as configured: open and watched exactly if it has a use, with a LAPD instance exactly if it is for
signalling with LAPD in this library; types, queues and links are as before -/
theorem C145_as_configured_partial {E : Env} (hE : NotStdin E) (hR : Errors E) {ul : Nat → Bool} {ops : List Op} {w : W} {a : Acts} (ho : Sane ops) (h : run E (init ul) ops = .ok (w, a)) {l t : Nat}
    (ht : 1 ≤ t ∧ t ≤ 31) (hW : WorksAt E t) (hr : (lineUpdate E w l).2.2 = 0) :
    AsConfigured (ul l) ((lineUpdate E w l).1.s l t) ∧ ((lineUpdate E w l).1.s l t).ty = (w.s l t).ty ∧ ((lineUpdate E w l).1.s l t).q = (w.s l t).q ∧ ((lineUpdate E w l).1.s l t).links = (w.s l t).links := by
  have k := run_ok hE hR ops (init_rinv ul) ho h
  have U := lineUpdate_ok hE k.inv.inv l hR
  have c0 : Conf ((init ul).ul l) ((init ul).s l t) := ⟨rfl, rfl, rfl⟩
  have c := run_conf hE hR (x := l) hW ht.1 ops (init_rinv ul) ho h c0
  have e : w.ul l = ul l := by rw [k.ul]; rfl
  have c1 : Conf (w.ul l) (w.s l t) := by rw [e]; exact c
  have c2 := lineUpdate_conf hE k.inv.inv l t hW c1
  rw [e] at c2
  exact ⟨conf_eq c2 (U.cur hr t (mem_slots.2 ht)), U.ty l t, U.q l t, U.links l t⟩

/-- C145: a line update that returns 0 leaves the D-channel open exactly if there is a time slot for signalling and LAPD is in this library -/
theorem C145_d_channel {E : Env} (hE : NotStdin E) (hR : Errors E) {ul : Nat → Bool} {ops : List Op} {w : W} {a : Acts} (ho : Sane ops) (h : run E (init ul) ops = .ok (w, a)) {l : Nat}
    (hr : (lineUpdate E w l).2.2 = 0) : 0 < ((lineUpdate E w l).1.line l).dummy ↔ ((∃ t, 1 ≤ t ∧ t ≤ 31 ∧ (w.s l t).ty = .sign) ∧ ul l = true) := by
  have k := run_ok hE hR ops (init_rinv ul) ho h
  have U := lineUpdate_ok hE k.inv.inv l hR
  have e : w.ul l = ul l := by rw [k.ul]; rfl
  rw [U.dummy hr, e]
  constructor
  · rintro ⟨⟨t, m, g⟩, q⟩; exact ⟨⟨t, (mem_slots.1 m).1, (mem_slots.1 m).2, g⟩, q⟩
  · rintro ⟨⟨t, m1, m2, g⟩, q⟩; exact ⟨⟨t, mem_slots.2 ⟨m1, m2⟩, g⟩, q⟩

/-- C145: in every line update, a socket is bound to the card of the line only, and with the protocol and channel its time slot needs; the D-channel is channel 0 -/
theorem C145_suits {E : Env} (hE : NotStdin E) (hR : Errors E) {ul : Nat → Bool} {ops : List Op} {w : W} {a : Acts} (ho : Sane ops) (h : run E (init ul) ops = .ok (w, a)) {l x t : Nat} {f : Int} {d c : Nat}
    (hb : Act.bind f d c ∈ ofSlot x t (lineUpdate E w l).2.1) :
    x = l ∧ d = (w.line l).port ∧ ((1 ≤ t ∧ ∃ p, Act.socket p f ∈ ofSlot x t (lineUpdate E w l).2.1 ∧ Suits (ul l) t (w.s l t).ty p c) ∨
      (t = 0 ∧ c = 0 ∧ Act.socket .ntE1 f ∈ ofSlot x t (lineUpdate E w l).2.1)) := by
  have k := run_ok hE hR ops (init_rinv ul) ho h
  have U := lineUpdate_ok hE k.inv.inv l hR
  have e : w.ul l = ul l := by rw [k.ul]; rfl
  by_cases g : 1 ≤ t
  · obtain ⟨q1, q2, q3⟩ := U.suits x t f d c g hb
    rw [e] at q3
    exact ⟨q1, q2, .inl ⟨g, q3⟩⟩
  · have : t = 0 := by omega
    subst this
    obtain ⟨q1, q2, q3, q4⟩ := U.suits0 x f d c hb
    exact ⟨q1, q2, .inr ⟨rfl, q3, q4⟩⟩

/-- C145: a socket that is opened for a time slot in a line update that returns 0 is bound and, unless LAPD is in the kernel, activated, and it is the one the time slot has afterwards; no confirmation of the former socket is waited for -/
theorem C145_complete {E : Env} (hE : NotStdin E) (hR : Errors E) {ul : Nat → Bool} {ops : List Op} {w : W} {a : Acts} (ho : Sane ops) (h : run E (init ul) ops = .ok (w, a)) {l t : Nat} (ht : 1 ≤ t ∧ t ≤ 31)
    (hr : (lineUpdate E w l).2.2 = 0) {p : Proto} {f : Int} (hs : Act.socket p f ∈ ofSlot l t (lineUpdate E w l).2.1) :
    (∃ c, Act.bind f (w.line l).port c ∈ ofSlot l t (lineUpdate E w l).2.1) ∧ (¬ ((w.s l t).ty = .sign ∧ ul l = false) → Act.activate f ∈ ofSlot l t (lineUpdate E w l).2.1) ∧
      ((lineUpdate E w l).1.s l t).fd = f ∧ ((lineUpdate E w l).1.s l t).reg = true ∧ ((lineUpdate E w l).1.s l t).unconf = false := by
  have k := run_ok hE hR ops (init_rinv ul) ho h
  have e : w.ul l = ul l := by rw [k.ul]; rfl
  obtain ⟨k1, k2, k3⟩ := lineUpdate_slot hE hR k.inv.inv l t (mem_slots.2 ht) hr
  rw [k1] at hs ⊢
  rw [k2]
  by_cases hc : (w.s l t).cur = (w.s l t).ty
  · unfold updSlot at hs; rw [if_pos hc] at hs; cases hs
  · by_cases hn : (w.s l t).ty = .none
    · unfold updSlot at hs
      rw [if_neg hc, if_pos hn] at hs
      simp only [tearDown] at hs
      split at hs
      · simp at hs
      · cases hs
    · obtain ⟨z, z1, z2, z3, z4, z5⟩ := updSlot_opens k3 hc hn
      rw [z1] at hs ⊢
      have hf : f = (E.ans w.upd t).fd := by
        rw [z2] at hs
        split at hs <;> split at hs <;> simp at hs <;> exact hs.2
      subst hf
      refine ⟨⟨channel (w.ul l) t (w.s l t).ty, by simp⟩, ?_, z3, z4, z5⟩
      intro q
      rw [z2, e, if_neg q]; simp

/-- C145: a time slot that is not configured again after a line update that returned 0 is not touched by the next one: it keeps its socket, queue and state, and nothing is requested for it -/
theorem C145_untouched {E : Env} (hE : NotStdin E) (hR : Errors E) {ul : Nat → Bool} {ops ops' : List Op} {w w' : W} {a a' : Acts} (ho : Sane ops) (h : run E (init ul) ops = .ok (w, a)) {l t : Nat} (ht : 1 ≤ t ∧ t ≤ 31)
    (hr : (lineUpdate E w l).2.2 = 0) (ho' : Sane ops') (hu : Unchanged l t ops') (h' : run E (lineUpdate E w l).1 ops' = .ok (w', a')) (l' : Nat) :
    (lineUpdate E w' l').1.s l t = w'.s l t ∧ ofSlot l t (lineUpdate E w' l').2.1 = [] := by
  have k := run_ok hE hR ops (init_rinv ul) ho h
  have U := lineUpdate_ok hE k.inv.inv l hR
  have i1 : RInv (lineUpdate E w l).1 := ⟨U.inv, fun x => by rw [U.line x]; exact k.inv.gone x⟩
  have c := run_cur hE hR ht.1 ops' i1 ho' hu (U.cur hr t (mem_slots.2 ht)) h'
  exact (lineUpdate_ok hE c.1.inv l' hR).same l t ht.1 c.2.1

/-- a kernel on which the first socket for time slot 1 fails -/
def busy : Env := ⟨fun _ => none, fun _ => (100, true), fun n t => ⟨if t = 1 ∧ n = 0 then -23 else t + 100, true, true, true⟩⟩

/-- C145: a time slot for which a request failed is not set up by later updates, though they return 0 -/
theorem C145_retry_violated : ∃ w a, run busy (init fun _ => false) [.config 0 1 .raw, .update 0] = .ok (w, a) ∧ (lineUpdate busy w 0).2.2 = 0 ∧
    ¬ AsConfigured false ((lineUpdate busy w 0).1.s 0 1) := by
  have k : (run busy (init fun _ => false) [.config 0 1 .raw, .update 0]).map (fun p => (p.2, (lineUpdate busy p.1 0).2.2, ((lineUpdate busy p.1 0).1.s 0 1))) =
      .ok ([], 0, ⟨.raw, .raw, -23, false, false, false, false, false, [], []⟩) := by decide +kernel
  cases hrun : run busy (init fun _ => false) [.config 0 1 .raw, .update 0] with
  | error e => rw [hrun] at k; cases k
  | ok p =>
    rw [hrun] at k
    injection k with k
    have k1 := congrArg (fun z => z.2.1) k
    have k2 := congrArg (fun z => z.2.2) k
    refine ⟨p.1, p.2, rfl, k1, ?_⟩
    simp only at k2
    rw [k2]
    intro g
    have := g.1
    revert this; decide

/-- C145: a time slot for I.460 multiplexing is bound to channel 0, not to its own channel, and none of its events does anything -/
theorem C145_i460_violated : (∃ w, run card (init fun _ => false) [.config 0 5 .i460, .update 0] = .ok (w, [((0, 5), .socket .bRaw 105), ((0, 5), .bind 105 0 0), ((0, 5), .activate 105)]) ∧ (w.s 0 5).reg = true) ∧
    ∀ ul x s e, s.ty = .i460 → fdCb ul x s e = .ok (x, s, []) := by
  constructor
  · have k : look 5 (run card (init fun _ => false) [.config 0 5 .i460, .update 0]) =
      .ok ([((0, 5), .socket .bRaw 105), ((0, 5), .bind 105 0 0), ((0, 5), .activate 105)], ⟨.i460, .i460, 105, true, false, false, false, false, [], []⟩) := by decide +kernel
    obtain ⟨w, e, g⟩ := look_ok k
    exact ⟨w, e, by rw [g]⟩
  · intro ul x s e ht
    have h1 : optR e.rd x s (fun x s => evRead ul x s e) = .ok (x, s, []) := by unfold optR evRead; simp only [ht]; split <;> rfl
    have h2 : optW e.wr s (fun s => evWrite ul s e) = .ok (s, []) := by unfold optW evWrite; simp only [ht]; split <;> rfl
    unfold fdCb
    rw [h1]
    simp only [bind, Except.bind]
    rw [h2]; rfl

example : look 16 (run card (init fun _ => false) [.port 0 3, .config 0 16 .hdlc, .config 0 1 .sign, .config 0 7 .raw, .config 0 9 .trau, .update 0]) =
    .ok ([((0, 1), .socket .lapdNt 101), ((0, 1), .bind 101 3 0), ((0, 7), .socket .bRaw 107), ((0, 7), .bind 107 3 7), ((0, 7), .activate 107), ((0, 9), .socket .bRaw 109), ((0, 9), .bind 109 3 9),
      ((0, 9), .activate 109), ((0, 16), .socket .ntE1 116), ((0, 16), .bind 116 3 0), ((0, 16), .activate 116)], ⟨.hdlc, .hdlc, 116, true, false, false, false, false, [], []⟩) := by decide +kernel

/-! ### C146 -/

theorem fdCb_rd {ul : Bool} {x x' : Line} {s s' : Slot} {e : Ev} {a : List Act} (h1 : e.rd = true) (h2 : e.wr = false) (h : evRead ul x s e = .ok (x', s', a)) : fdCb ul x s e = .ok (x', s', a) := by
  unfold fdCb optR
  rw [if_pos h1]
  simp only [h, bind, Except.bind, optW, h2]
  simp

theorem fdCb_wr {ul : Bool} {x : Line} {s s' : Slot} {e : Ev} {a : List Act} (h1 : e.rd = false) (h2 : e.wr = true) (h : evWrite ul s e = .ok (s', a)) : fdCb ul x s e = .ok (x, s', a) := by
  unfold fdCb optR
  rw [if_neg (by rw [h1]; intro g; cases g)]
  simp only [bind, Except.bind, optW, if_pos h2]
  rw [h]
  rfl

/-- C146: after a line update that returned 0, the messages sent on a signalling, raw or HDLC time slot go out in the order they were sent, each exactly once and unchanged; the rest is in the queue -/
theorem C146_order {E : Env} (hE : NotStdin E) (hR : Errors E) {ul : Nat → Bool} {ops ops' : List Op} {w w' : W} {a a' : Acts} (ho : Sane ops) (h : run E (init ul) ops = .ok (w, a)) {l t : Nat} (ht : 1 ≤ t ∧ t ≤ 31)
    (hr : (lineUpdate E w l).2.2 = 0) (hty : (w.s l t).ty = .sign ∨ (w.s l t).ty = .raw ∨ (w.s l t).ty = .hdlc) (ho' : Sane ops') (hu : Unchanged l t ops') (h' : run E (lineUpdate E w l).1 ops' = .ok (w', a')) :
    (w.s l t).q.map (·.d) ++ sent l t ops' = wentOut (w.s l t).ty (ofSlot l t a') ++ (w'.s l t).q.map (·.d) := by
  have k := run_ok hE hR ops (init_rinv ul) ho h
  have U := lineUpdate_ok hE k.inv.inv l hR
  have i1 : RInv (lineUpdate E w l).1 := ⟨U.inv, fun x => by rw [U.line x]; exact k.inv.gone x⟩
  have Q := (run_que hE hR l t ht.1 ops' i1 ho' hu (by rw [U.ty]; exact hty) (U.cur hr t (mem_slots.2 ht)) h').fifo
  rw [U.q, U.ty] at Q; exact Q

/-- C146: on raw and HDLC time slots, at most one block the kernel accepted is not yet confirmed -/
theorem C146_flow {E : Env} (hE : NotStdin E) (hR : Errors E) {ul : Nat → Bool} {ops ops' : List Op} {w w' : W} {a a' : Acts} (ho : Sane ops) (h : run E (init ul) ops = .ok (w, a)) {l t : Nat} (ht : 1 ≤ t ∧ t ≤ 31)
    (hr : (lineUpdate E w l).2.2 = 0) (hty : (w.s l t).ty = .raw ∨ (w.s l t).ty = .hdlc) (ho' : Sane ops') (hu : Unchanged l t ops') (h' : run E (lineUpdate E w l).1 ops' = .ok (w', a')) :
    accepted (ofSlot l t a') ≤ cnfs l t ops' + 1 := by
  have k := run_ok hE hR ops (init_rinv ul) ho h
  have U := lineUpdate_ok hE k.inv.inv l hR
  have i1 : RInv (lineUpdate E w l).1 := ⟨U.inv, fun x => by rw [U.line x]; exact k.inv.gone x⟩
  have Q := (run_que hE hR l t ht.1 ops' i1 ho' hu (by rw [U.ty]; exact .inr hty) (U.cur hr t (mem_slots.2 ht)) h').acc (by rw [U.ty]; exact hty)
  have : (if (w'.s l t).unconf then 1 else 0) ≤ 1 := by split <;> omega
  omega

/-- C146: if the queue was empty when the line was updated, a message in the queue of a signalling time slot is never forgotten: the write event is enabled, or the timer runs that will enable it -/
theorem C146_sign_awake {E : Env} (hE : NotStdin E) (hR : Errors E) {ul : Nat → Bool} {ops ops' : List Op} {w w' : W} {a a' : Acts} (ho : Sane ops) (h : run E (init ul) ops = .ok (w, a)) {l t : Nat} (ht : 1 ≤ t ∧ t ≤ 31)
    (hr : (lineUpdate E w l).2.2 = 0) (hty : (w.s l t).ty = .sign) (hq : (w.s l t).q = []) (ho' : Sane ops') (hu : Unchanged l t ops') (h' : run E (lineUpdate E w l).1 ops' = .ok (w', a'))
    (hm : (w'.s l t).q ≠ []) : (w'.s l t).wr = true ∨ (w'.s l t).timer = true := by
  have k := run_ok hE hR ops (init_rinv ul) ho h
  have U := lineUpdate_ok hE k.inv.inv l hR
  have i1 : RInv (lineUpdate E w l).1 := ⟨U.inv, fun x => by rw [U.line x]; exact k.inv.gone x⟩
  exact (run_que hE hR l t ht.1 ops' i1 ho' hu (by rw [U.ty]; exact .inl hty) (U.cur hr t (mem_slots.2 ht)) h').wakeS (by rw [U.ty]; exact hty) (fun g => absurd (by rw [U.q]; exact hq) g) hm

/-- C146: if, in addition, the kernel accepts each block completely, a message in the queue of a raw or HDLC time slot is never forgotten: the write event is enabled, or the confirmation that will enable it is outstanding -/
theorem C146_b_awake_partial {E : Env} (hE : NotStdin E) (hR : Errors E) {ul : Nat → Bool} {ops ops' : List Op} {w w' : W} {a a' : Acts} (ho : Sane ops) (h : run E (init ul) ops = .ok (w, a)) {l t : Nat} (ht : 1 ≤ t ∧ t ≤ 31)
    (hr : (lineUpdate E w l).2.2 = 0) (hty : (w.s l t).ty = .raw ∨ (w.s l t).ty = .hdlc) (hq : (w.s l t).q = []) (ho' : Sane ops') (hu : Unchanged l t ops') (h' : run E (lineUpdate E w l).1 ops' = .ok (w', a'))
    (ha : AllAccepted (ofSlot l t a')) (hm : (w'.s l t).q ≠ []) : (w'.s l t).wr = true ∨ (w'.s l t).unconf = true := by
  have k := run_ok hE hR ops (init_rinv ul) ho h
  have U := lineUpdate_ok hE k.inv.inv l hR
  have i1 : RInv (lineUpdate E w l).1 := ⟨U.inv, fun x => by rw [U.line x]; exact k.inv.gone x⟩
  exact (run_que hE hR l t ht.1 ops' i1 ho' hu (by rw [U.ty]; exact .inr hty) (U.cur hr t (mem_slots.2 ht)) h').wakeB (by rw [U.ty]; exact hty) ha (fun g => absurd (by rw [U.q]; exact hq) g) hm

/-- C146: the timer and the confirmation enable the write event, and a write event sends the first message (unless a confirmation is outstanding) -/
theorem C146_progress :
    (∀ s : Slot, s.ty = .sign → (timeout s).wr = true ∧ (timeout s).q = s.q) ∧
    (∀ ul x (s : Slot) e d, s.ty = .raw ∨ s.ty = .hdlc → e.rd = true → e.wr = false → e.data = some d → rd32 d 0 = 0x6002 → fdCb ul x s e = .ok (x, { s with unconf := false, wr := true }, [])) ∧
    (∀ ul x (s : Slot) e m q, s.ty = .sign → (ul = true → s.lapd = true) → s.q = m :: q → 8 ≤ m.room → e.rd = false → e.wr = true →
      ∃ s' a, fdCb ul x s e = .ok (x, s', a) ∧ wentOut .sign a = [m.d] ∧ s'.q = q ∧ s'.timer = true) ∧
    (∀ ul x (s : Slot) e m q, s.ty = .raw ∨ s.ty = .hdlc → s.unconf = false → s.q = m :: q → 8 ≤ m.room → e.rd = false → e.wr = true →
      ∃ s' a, fdCb ul x s e = .ok (x, s', a) ∧ wentOut s.ty a = [m.d] ∧ s'.q = q) := by
  refine ⟨fun s ht => ⟨timeout_wr (.inl ht), by rw [timeout_eq]⟩, ?_, ?_, ?_⟩
  · intro ul x s e d ht h1 h2 hd hc
    refine fdCb_rd h1 h2 ?_
    rcases ht with ht | ht <;> simp only [evRead, ht]
    · unfold rawRead
      rw [hd]
      simp only [Option.map_some]
      rw [rd32_take _ _ _ (by decide), if_neg (by rw [hc]; decide), if_pos (show rd32 d 0 = PH_DATA_CNF from hc)]
      rw [show confirm s = { s with unconf := false, wr := true } from rfl, ht]
    · unfold hdlcRead
      rw [hd]
      simp only [Option.map_some]
      rw [rd32_take _ _ _ (by decide), if_neg (by rw [hc]; decide), if_pos (show rd32 d 0 = PH_DATA_CNF from hc)]
      rw [show confirm s = { s with unconf := false, wr := true } from rfl, ht]
  · intro ul x s e m q ht hl hq hm h1 h2
    have hp : push m (head DL_DATA_REQ 0) = .ok (head DL_DATA_REQ 0 ++ m.d) := by unfold push; rw [if_neg (by simp only [HLEN]; omega)]
    cases ul with
    | true =>
      refine ⟨_, _, fdCb_wr h1 h2 (by simp only [evWrite, ht, signWrite, hq, if_pos (hl rfl)]; rfl), ?_, rfl, rfl⟩
      simp [wentOut]
    | false =>
      refine ⟨_, _, fdCb_wr h1 h2 (by simp only [evWrite, ht, signWrite, hq, hp, bind, Except.bind]; rfl), ?_, rfl, rfl⟩
      simp only [wentOut, if_true, head_drop]
  · intro ul x s e m q ht hn hq hm h1 h2
    have hp : ∀ f : Byte → Byte, push { m with d := m.d.map f } (head PH_DATA_REQ 0) = .ok (head PH_DATA_REQ 0 ++ m.d.map f) := by intro f; unfold push; rw [if_neg (by simp only [HLEN]; omega)]
    have hrr : List.map rev (List.map rev m.d) = m.d := by
      rw [List.map_map]; conv => rhs; rw [← List.map_id m.d]
      exact List.map_congr_left (fun b _ => rev_rev b)
    rcases ht with ht | ht
    · refine ⟨_, _, fdCb_wr h1 h2 (by simp only [evWrite, ht, bWrite, hq, hn, hp, bind, Except.bind]; rfl), ?_, rfl⟩
      rw [ht]; simp only [wentOut, if_true, head_drop, hrr]
    · refine ⟨_, _, fdCb_wr h1 h2 (by simp only [evWrite, ht, bWrite, hq, hn, hp, bind, Except.bind]; rfl), ?_, rfl⟩
      rw [ht]; simp [wentOut, head_drop]

def msg (d : List Byte) : Msg := ⟨0, 0, 64, d⟩

/-- C146: the messages that are waiting when the type of a time slot is changed are freed, each once, and never go out; the timer does not run and the socket stays until the next update; the same type again changes nothing -/
theorem C146_config_frees (s : Slot) (ty : Ty) :
    (ty ≠ s.ty → (config s ty).2 = s.q.map Act.free ∧ (config s ty).1.q = [] ∧ (config s ty).1.ty = ty ∧ (config s ty).1.timer = false ∧ (config s ty).1.links = []) ∧
      config s s.ty = (s, []) ∧ (config s ty).1.fd = s.fd ∧ (config s ty).1.reg = s.reg ∧ (config s ty).1.lapd = s.lapd ∧ (config s ty).1.wr = s.wr ∧ (config s ty).1.unconf = s.unconf := by
  refine ⟨fun h => ?_, ?_, ?_⟩
  · unfold config; rw [if_neg (fun e => h e.symm)]; exact ⟨rfl, rfl, rfl, rfl, rfl⟩
  · unfold config; rw [if_pos rfl]
  · unfold config; split <;> exact ⟨rfl, rfl, rfl, rfl, rfl⟩

example : config ⟨.raw, .raw, 5, true, true, false, false, false, [msg [1], msg [2]], []⟩ .hdlc =
    (⟨.hdlc, .raw, 5, true, true, false, false, false, [], []⟩, [.free (msg [1]), .free (msg [2])]) := rfl

/-- C146: with an empty queue, or (on raw and HDLC time slots) while a confirmation is waited for, a write event only ends the wait for further ones: nothing is sent, the queue stays as it is -/
theorem C146_idle (ul : Bool) (x : Line) (s : Slot) (e : Ev) (h1 : e.rd = false) (h2 : e.wr = true)
    (hq : (s.ty = .sign ∧ s.q = []) ∨ ((s.ty = .raw ∨ s.ty = .hdlc) ∧ (s.q = [] ∨ s.unconf = true))) : fdCb ul x s e = .ok (x, { s with wr := false }, []) := by
  apply fdCb_wr h1 h2
  obtain ⟨ty, cur, fd, reg, wr, lapd, timer, unconf, q, links⟩ := s
  simp only at hq
  rcases hq with ⟨rfl, rfl⟩ | ⟨rfl | rfl, rfl | rfl⟩
  · rfl
  · cases unconf <;> rfl
  · rfl
  · cases unconf <;> rfl
  · rfl

/-- C146: if the kernel takes less than a block (or refuses it), the rest of the queue is not sent: no write event, no confirmation is due -/
theorem C146_short_violated : ∃ w a, run card (init fun _ => false) [.config 0 1 .raw, .update 0, .send 0 1 (msg [1]), .send 0 1 (msg [2]), .event 0 1 (writable (-1))] = .ok (w, a) ∧
    (w.s 0 1).q = [msg [2]] ∧ (w.s 0 1).wr = false ∧ (w.s 0 1).unconf = false := by
  have k : look 1 (run card (init fun _ => false) [.config 0 1 .raw, .update 0, .send 0 1 (msg [1]), .send 0 1 (msg [2]), .event 0 1 (writable (-1))]) =
      .ok ([((0, 1), .socket .bRaw 101), ((0, 1), .bind 101 0 1), ((0, 1), .activate 101), ((0, 1), .send 101 [1, 0x20, 0, 0, 0, 0, 0, 0, 0x80] (-1)), ((0, 1), .free (msg [1]))],
        ⟨.raw, .raw, 101, true, false, false, false, false, [msg [2]], []⟩) := by decide +kernel
  obtain ⟨w, e, g⟩ := look_ok k
  exact ⟨w, _, e, by rw [g], by rw [g], by rw [g]⟩

/-- C146: a message sent before the first line update is not sent after it: the update disables the write event -/
theorem C146_early_violated : ∃ w a, run card (init fun _ => false) [.config 0 1 .hdlc, .send 0 1 (msg [1]), .update 0] = .ok (w, a) ∧
    (w.s 0 1).q = [msg [1]] ∧ (w.s 0 1).reg = true ∧ (w.s 0 1).wr = false ∧ (w.s 0 1).unconf = false := by
  have k : look 1 (run card (init fun _ => false) [.config 0 1 .hdlc, .send 0 1 (msg [1]), .update 0]) =
      .ok ([((0, 1), .socket .bHdlc 101), ((0, 1), .bind 101 0 1), ((0, 1), .activate 101)], ⟨.hdlc, .hdlc, 101, true, false, false, false, false, [msg [1]], []⟩) := by decide +kernel
  obtain ⟨w, e, g⟩ := look_ok k
  exact ⟨w, _, e, by rw [g], by rw [g], by rw [g], by rw [g]⟩

example : look 1 (run card (init fun _ => false) [.config 0 1 .hdlc, .update 0, .send 0 1 (msg [1]), .send 0 1 (msg [2]), .event 0 1 (writable 9), .event 0 1 (writable 9), .event 0 1 (got (head 0x6002 0)),
      .event 0 1 (writable 9)]) =
    .ok ([((0, 1), .socket .bHdlc 101), ((0, 1), .bind 101 0 1), ((0, 1), .activate 101), ((0, 1), .send 101 [1, 0x20, 0, 0, 0, 0, 0, 0, 1] 9), ((0, 1), .free (msg [1])),
      ((0, 1), .send 101 [1, 0x20, 0, 0, 0, 0, 0, 0, 2] 9), ((0, 1), .free (msg [2]))], ⟨.hdlc, .hdlc, 101, true, false, false, false, true, [], []⟩) := by decide +kernel

/-! ### C147 -/

/-- C147: the bits of an octet in the reverse order -/
theorem C147_rev_bits : ∀ (b : Byte) (i : Fin 8), (rev b).getLsbD i = b.getLsbD (7 - i) := by decide +kernel

/-- C147: the octets of a received frame (of at most 4096 octets) are passed on completely, once, and unchanged, except for the order of the bits on raw time slots; as many octets as were received on a TRAU time slot are sent -/
theorem C147_receive {ul : Bool} {x : Line} {s : Slot} {e : Ev} {d : List Byte} (h1 : e.rd = true) (h2 : e.wr = false) (hd : e.data = some d) (hp : rd32 d 0 = 0x2002) (hl : 8 ≤ d.length ∧ d.length ≤ 4096) :
    (s.ty = .raw → fdCb ul x s e = .ok (x, s, [.rx ((d.drop 8).map rev)])) ∧
    (s.ty = .hdlc → fdCb ul x s e = .ok (x, s, [.rx (d.drop 8)])) ∧
    (s.ty = .trau → ∃ o, o.length = d.length - 8 ∧ (∀ i, i < o.length → o[i]? = some (e.mux i)) ∧ fdCb ul x s e = .ok (x, s, [.send s.fd ([1, 0x20, 0, 0, 0, 0, 0, 0] ++ o) e.n, .rx (d.drop 8)])) := by
  have tk : d.take 4096 = d := List.take_of_length_le hl.2
  have ln : ¬ d.length < HLEN := by simp only [HLEN]; omega
  refine ⟨?_, ?_, ?_⟩ <;> intro ht
  · refine fdCb_rd h1 h2 ?_
    simp only [evRead, ht, rawRead, hd, Option.map_some, tk]
    rw [if_pos (show rd32 d 0 = PH_DATA_IND from hp), if_neg ln]; rfl
  · refine fdCb_rd h1 h2 ?_
    simp only [evRead, ht, hdlcRead, hd, Option.map_some, tk]
    rw [if_pos (show rd32 d 0 = PH_DATA_IND from hp), if_neg ln]; rfl
  · refine ⟨(List.range (d.length - 8)).map e.mux, by simp, ?_, ?_⟩
    · intro i g
      simp at g
      simp [List.getElem?_range g]
    refine fdCb_rd h1 h2 ?_
    simp only [evRead, ht, trauRead, hd, Option.map_some, tk]
    rw [if_pos (show rd32 d 0 = PH_DATA_IND from hp), if_neg ln]; rfl

/-- C147: a message that is sent on a raw or HDLC time slot is given to the kernel completely, after the 8 octets of the header, unchanged except for the order of the bits on raw time slots; its memory is freed -/
theorem C147_send {ul : Bool} {x : Line} {s : Slot} {e : Ev} {m : Msg} {q : List Msg} (h1 : e.rd = false) (h2 : e.wr = true) (hn : s.unconf = false) (hq : s.q = m :: q) (hm : 8 ≤ m.room) :
    (s.ty = .raw → ∃ s', fdCb ul x s e = .ok (x, s', [.send s.fd ([1, 0x20, 0, 0, 0, 0, 0, 0] ++ m.d.map rev) e.n, .free m])) ∧
    (s.ty = .hdlc → ∃ s', fdCb ul x s e = .ok (x, s', [.send s.fd ([1, 0x20, 0, 0, 0, 0, 0, 0] ++ m.d) e.n, .free m])) := by
  have hp : ∀ f : Byte → Byte, push { m with d := m.d.map f } (head PH_DATA_REQ 0) = .ok (head PH_DATA_REQ 0 ++ m.d.map f) := by intro f; unfold push; rw [if_neg (by simp only [HLEN]; omega)]
  constructor <;> intro ht
  · exact ⟨_, fdCb_wr h1 h2 (by simp only [evWrite, ht, bWrite, hq, hn, hp, bind, Except.bind]; rfl)⟩
  · refine ⟨{ s with wr := false, q := q, unconf := !decide (e.n < (head PH_DATA_REQ 0 ++ m.d).length) }, fdCb_wr h1 h2 ?_⟩
    have hp' := hp id
    rw [List.map_id] at hp'
    simp only [evWrite, ht, bWrite, hq, hn, List.map_id, hp', bind, Except.bind]
    rfl

example : fdCb false newLine { newSlot with ty := .raw } (got ([2, 0x20, 0, 0, 0, 0, 0, 0] ++ [1, 0x0f])) = .ok (newLine, { newSlot with ty := .raw }, [.rx [0x80, 0xf0]]) :=
  (C147_receive (d := [2, 0x20, 0, 0, 0, 0, 0, 0] ++ [1, 0x0f]) rfl rfl rfl (by decide) (by decide)).1 rfl

/-! ### C148 -/

theorem init_safe (ul : Nat → Bool) : SafeInv (fun _ => false) (fun _ _ => .none) (init ul) := ⟨fun _ _ => rfl, (by intro l t m g; cases g), fun _ _ _ _ => rfl⟩

/-- C148: if the kernel grants all requests (and never with descriptor 0), and the API is used properly, no memory is used wrongly and no assertion fails, whatever is received -/
theorem C148_safe_partial {E : Env} (hE : NotStdin E) (hW : Works E) {ul : Nat → Bool} {ops : List Op} (hp : Proper (fun _ => false) (fun _ _ => .none) ops) : ∃ w a, run E (init ul) ops = .ok (w, a) :=
  run_safe hE hW ops (init_rinv ul) (init_safe ul) hp

/-- C148: a frame of the kernel that has no complete header makes the driver use the memory before it -/
theorem C148_short_frame_violated : run card (init fun _ => false) [.config 0 1 .raw, .update 0, .event 0 1 (got [2, 0x20, 0, 0])] = .error .oob :=
  look_error (t := 1) (by decide +kernel)

/-- C148: a message without room for the header makes the program abort when it is sent -/
theorem C148_room_violated : run card (init fun _ => false) [.config 0 1 .raw, .update 0, .send 0 1 ⟨0, 0, 0, [1]⟩, .event 0 1 (writable 9)] = .error .assert :=
  look_error (t := 1) (by decide +kernel)

/-- C148: between the configuration of another time slot as signalling and the update of the line, a frame on it makes the driver (with LAPD in this library) follow a null pointer -/
theorem C148_retype_violated : run card (init fun _ => true) [.config 0 1 .hdlc, .update 0, .config 0 1 .sign, .event 0 1 (got (head 0x2002 0))] = .error .badptr :=
  look_error (t := 1) (by decide +kernel)

/-- where a buffer is lost -/
theorem evWrite_leak {ul b : Bool} {s s' : Slot} {e : Ev} {a : List Act} (h : optW b s (fun s => evWrite ul s e) = .ok (s', a)) : Act.leak ∉ a := by
  unfold optW at h
  split at h
  · simp only [evWrite] at h
    have hb : ∀ f, bWrite f s e = .ok (s', a) → Act.leak ∉ a := by
      intro f h
      unfold bWrite at h
      split at h
      · cases h; simp
      · split at h
        · cases h; simp
        · rename_i m q _
          cases hp : push { m with d := m.d.map f } (head PH_DATA_REQ 0) with
          | error f => rw [hp] at h; cases h
          | ok d => rw [hp] at h; cases h; simp
    cases ht : s.ty <;> simp only [ht] at h
    case sign =>
      unfold signWrite at h
      split at h
      · cases h; simp
      · rename_i m q _
        split at h
        · split at h
          · cases h; simp
          · cases h
        · cases hp : push m (head DL_DATA_REQ 0) with
          | error f => rw [hp] at h; cases h
          | ok d => rw [hp] at h; cases h; simp
    case raw => exact hb _ h
    case hdlc => exact hb _ h
    all_goals (cases h; simp)
  · cases h; simp

theorem mph_leak (x : Line) (i : Nat) : Act.leak ∉ (mph x i).2 := by
  intro g
  obtain ⟨s, e⟩ := (mph_ok x i).only _ g
  cases e

/-- C148: a buffer is lost only if reading fails on a TRAU, raw or HDLC time slot, or if a frame is received on a signalling time slot whose LAPD is in the kernel -/
theorem C148_no_leak_partial {ul : Bool} {x x' : Line} {s s' : Slot} {e : Ev} {a : List Act} (h : fdCb ul x s e = .ok (x', s', a)) (hl : Act.leak ∈ a) :
    e.rd = true ∧ ((e.data = none ∧ (s.ty = .trau ∨ s.ty = .raw ∨ s.ty = .hdlc)) ∨ (s.ty = .sign ∧ ul = false ∧ ∃ d, e.data = some d ∧ rd32 d 0 = 0x2002)) := by
  obtain ⟨s1, a1, a2, h1, h2, rfl⟩ := fdCb_inv h
  have hl : Act.leak ∈ a1 := by
    rcases List.mem_append.1 hl with g | g
    · exact g
    · exact absurd g (evWrite_leak h2)
  unfold optR at h1
  split at h1
  · rename_i hr
    refine ⟨hr, ?_⟩
    simp only [evRead] at h1
    cases ht : s.ty <;> simp only [ht] at h1
    case none => cases h1; cases hl
    case i460 => cases h1; cases hl
    case trau =>
      left
      refine ⟨?_, .inl rfl⟩
      unfold trauRead at h1
      cases hd : e.data with
      | none => rfl
      | some d =>
        rw [hd] at h1
        simp only [Option.map_some] at h1
        split at h1
        · split at h1
          · cases h1
          · cases h1; simp [trauWrite] at hl
        · cases h1; cases hl
    case raw =>
      left
      refine ⟨?_, .inr (.inl rfl)⟩
      unfold rawRead at h1
      cases hd : e.data with
      | none => rfl
      | some d =>
        rw [hd] at h1
        simp only [Option.map_some] at h1
        split at h1
        · split at h1
          · cases h1
          · cases h1; simp at hl
        · split at h1 <;> cases h1 <;> cases hl
    case hdlc =>
      left
      refine ⟨?_, .inr (.inr rfl)⟩
      unfold hdlcRead at h1
      cases hd : e.data with
      | none => rfl
      | some d =>
        rw [hd] at h1
        simp only [Option.map_some] at h1
        split at h1
        · split at h1
          · cases h1
          · cases h1; simp at hl
        · split at h1
          · cases h1; cases hl
          · split at h1
            · injection h1 with h1
              have := congrArg (fun z => z.2.2) h1
              simp only [mphInd] at this
              rw [← this] at hl
              exact absurd hl (mph_leak _ _)
            · cases h1; cases hl
    case sign =>
      right
      refine ⟨rfl, ?_⟩
      unfold signRead at h1
      cases hd : e.data with
      | none => rw [hd] at h1; cases h1; cases hl
      | some d =>
        rw [hd] at h1
        simp only [Option.map_some] at h1
        rw [rd32_take _ _ _ (by decide)] at h1
        split at h1
        · cases h1; cases hl
        · split at h1
          · cases h1; cases hl
          · split at h1
            · unfold dlEst at h1; split at h1 <;> cases h1 <;> simp at hl
            · split at h1
              · unfold dlRel at h1; split at h1 <;> cases h1 <;> simp at hl
              · split at h1
                · unfold dlData at h1
                  split at h1
                  · cases h1
                  · split at h1
                    · cases h1; cases hl
                    · split at h1 <;> cases h1 <;> simp at hl
                · split at h1
                  · rename_i hp
                    unfold phData at h1
                    split at h1
                    · rename_i hu; exact ⟨hu, d, rfl, hp⟩
                    · split at h1
                      · cases h1
                      · split at h1
                        · cases h1; simp at hl
                        · cases h1
                  · split at h1
                    · injection h1 with h1
                      have := congrArg (fun z => z.2.2) h1
                      simp only [mphInd] at this
                      rw [← this] at hl
                      exact absurd hl (mph_leak _ _)
                    · cases h1; cases hl
  · cases h1; cases hl

/-- C148: buffers are lost if reading fails on a raw time slot, and if a frame is received with LAPD in the kernel -/
theorem C148_leak_violated : (∀ ul x s n, s.ty = .raw → fdCb ul x s ⟨true, false, none, true, 0, 0, 0, fun _ => 0, n⟩ = .ok (x, s, [.leak])) ∧
    (∀ x s, s.ty = .sign → fdCb false x s (got (head 0x2002 0)) = .ok (x, s, [.leak])) := by
  constructor
  · intro ul x s n ht
    exact fdCb_rd rfl rfl (by simp only [evRead, ht, rawRead]; rfl)
  · intro x s ht
    refine fdCb_rd rfl rfl ?_
    simp only [evRead, ht, signRead, got, Option.map_some]
    rfl

example : Proper (fun _ => false) (fun _ _ => .none) [.config 0 1 .sign, .config 0 2 .raw, .update 0, .send 0 2 (msg [1, 2]), .event 0 2 (writable 10), .event 0 1 (got (head 0x2002 7)),
    .lapdTx 0 1 (msg [3]) 9, .timeout 0 1, .config 0 2 .none, .update 0] := by
  refine ⟨rfl, .inr (.inl rfl), by decide, rfl, (by intro d e; cases e), rfl, ?_, rfl, by decide, rfl, trivial⟩
  intro d e; cases e; decide

/-! ### C149 -/

/-- C149: after a line update that returned 0, the channel of a signalling link is the one the kernel said last for the address of the link, whatever happens to other links, time slots and lines -/
theorem C149_channel {E : Env} (hE : NotStdin E) (hR : Errors E) {ul : Nat → Bool} {ops ops' : List Op} {w w' : W} {a a' : Acts} (ho : Sane ops) (h : run E (init ul) ops = .ok (w, a)) {l t : Nat} (ht : 1 ≤ t ∧ t ≤ 31)
    (hW : WorksAt E t) (hr : (lineUpdate E w l).2.2 = 0) (hty : (w.s l t).ty = .sign) (ho' : Sane ops') (hu : Unchanged l t ops') (h' : run E (lineUpdate E w l).1 ops' = .ok (w', a'))
    {tei sapi : Nat} {k : Link} (hk : findLink (w.s l t).links tei sapi = some k) :
    ∃ k', findLink (w'.s l t).links tei sapi = some k' ∧ k'.chan = told l t tei sapi k.chan ops' := by
  have r := run_ok hE hR ops (init_rinv ul) ho h
  have U := lineUpdate_ok hE r.inv.inv l hR
  have i1 : RInv (lineUpdate E w l).1 := ⟨U.inv, fun x => by rw [U.line x]; exact r.inv.gone x⟩
  have c := (C145_as_configured_partial hE hR ho h ht hW hr).1
  have hty' : ((lineUpdate E w l).1.s l t).ty = .sign := by rw [U.ty]; exact hty
  have hreg : ((lineUpdate E w l).1.s l t).reg = true := by
    unfold AsConfigured at c
    rw [hty'] at c; exact c.2.1
  have := run_told hE hR ht.1 ops' i1 ho' hu hty' (U.cur hr t (mem_slots.2 ht)) hreg h' (tei := tei) (sapi := sapi) (c := k.chan) (by rw [U.links, hk]; rfl)
  cases hf : findLink (w'.s l t).links tei sapi with
  | none => rw [hf] at this; cases this
  | some k' => rw [hf] at this; exact ⟨k', rfl, by injection this⟩

theorem findLink_spec {ls : List Link} {tei sapi : Nat} : (∀ k, findLink ls tei sapi = some k → k ∈ ls ∧ k.tei = tei ∧ k.sapi = sapi) ∧
    (findLink ls tei sapi = none ↔ ∀ k ∈ ls, ¬ (k.tei = tei ∧ k.sapi = sapi)) := by
  unfold findLink
  refine ⟨fun k h => ⟨List.mem_of_find?_eq_some h, ?_⟩, ?_⟩
  · simpa using List.find?_some h
  · rw [List.find?_eq_none]; simp

/-- C149: a link is found exactly if it exists, and it is the one with the address -/
theorem C149_lookup (ls : List Link) (tei sapi : Nat) : ((∃ k, findLink ls tei sapi = some k) ↔ ∃ k ∈ ls, k.tei = tei ∧ k.sapi = sapi) ∧
    ∀ k, findLink ls tei sapi = some k → k ∈ ls ∧ k.tei = tei ∧ k.sapi = sapi := by
  refine ⟨?_, findLink_spec.1⟩
  constructor
  · rintro ⟨k, h⟩; exact ⟨k, findLink_spec.1 k h⟩
  · rintro ⟨k, m, g⟩
    cases h : findLink ls tei sapi with
    | some k' => exact ⟨k', rfl⟩
    | none => exact absurd g (findLink_spec.2.1 h k m)

/-- C149: with LAPD in the kernel, a message is sent to the channel of its link, after a header of 8 octets, and freed -/
theorem C149_send {x : Line} {s : Slot} {e : Ev} {m : Msg} {q : List Msg} {k : Link} (h1 : e.rd = false) (h2 : e.wr = true) (ht : s.ty = .sign) (hq : s.q = m :: q) (hm : 8 ≤ m.room)
    (hk : findLink s.links m.tei m.sapi = some k) : fdCb false x s e = .ok (x, { s with wr := false, q := q, timer := true }, [.sendTo s.fd k.chan ([4, 0x30, 0, 0, 0, 0, 0, 0] ++ m.d) e.n, .free m]) := by
  have hp : push m (head DL_DATA_REQ 0) = .ok (head DL_DATA_REQ 0 ++ m.d) := by unfold push; rw [if_neg (by simp only [HLEN]; omega)]
  refine fdCb_wr h1 h2 ?_
  simp only [evWrite, ht, signWrite, hq, hp, bind, Except.bind, chanOf, hk]
  rfl

/-- C149: with LAPD in the kernel, the establishment and the release of a link and its messages are passed on for links that exist only, and unchanged -/
theorem C149_receive {x : Line} {s : Slot} {e : Ev} {d : List Byte} (h1 : e.rd = true) (h2 : e.wr = false) (ht : s.ty = .sign) (ha : e.addr = true) (hd : e.data = some d) (hl : 8 ≤ d.length ∧ d.length ≤ 300)
    (hp : rd32 d 0 = 0x1008 ∨ rd32 d 0 = 0x1108 ∨ rd32 d 0 = 0x3008 ∨ rd32 d 0 = 0x3108) :
    ∃ s' acts, fdCb false x s e = .ok (x, s', acts) ∧
      ((¬ ∃ k ∈ s.links, k.tei = e.tei ∧ k.sapi = e.sapi) → acts = []) ∧
      ((∃ k ∈ s.links, k.tei = e.tei ∧ k.sapi = e.sapi) →
        (rd32 d 0 = 0x1008 → acts = [.up e.tei e.sapi]) ∧ (rd32 d 0 = 0x1108 → acts = [.down e.tei e.sapi]) ∧
        (rd32 d 0 = 0x3008 ∨ rd32 d 0 = 0x3108 → acts = [.rxLink e.tei e.sapi (d.drop 8)])) := by
  have tk : d.take 300 = d := List.take_of_length_le hl.2
  have ln : ¬ d.length < HLEN := by simp only [HLEN]; omega
  have hn : ¬ e.addr = false := by rw [ha]; intro g; cases g
  have red : ∀ r, signRead false x s e = .ok r → fdCb false x s e = .ok r := by
    intro r h
    obtain ⟨r1, r2, r3⟩ := r
    exact fdCb_rd h1 h2 (by simp only [evRead, ht]; exact h)
  have nf : findLink s.links e.tei e.sapi = none ↔ ¬ ∃ k ∈ s.links, k.tei = e.tei ∧ k.sapi = e.sapi := by
    rw [findLink_spec.2]
    constructor
    · rintro g ⟨k, m, q⟩; exact g k m q
    · intro g k m q; exact g ⟨k, m, q⟩
  have yf : ∀ {k}, findLink s.links e.tei e.sapi = some k → ∃ k ∈ s.links, k.tei = e.tei ∧ k.sapi = e.sapi := fun h => ⟨_, findLink_spec.1 _ h⟩
  by_cases c1 : rd32 d 0 = 0x1008
  · have e1 : signRead false x s e = .ok (dlEst x s e) := by
      unfold signRead; rw [hd]; simp only [Option.map_some, tk]; rw [if_neg hn, if_neg (by rw [c1]; decide), if_pos (show rd32 d 0 = DL_ESTABLISH_IND from c1)]
    cases hf : findLink s.links e.tei e.sapi with
    | none =>
      have e2 : dlEst x s e = (x, s, []) := by unfold dlEst; rw [hf]
      rw [e2] at e1
      exact ⟨s, [], red _ e1, fun _ => rfl, fun g => absurd g (nf.1 hf)⟩
    | some k =>
      have e2 : dlEst x s e = (x, { s with links := setChan s.links e.tei e.sapi e.chan }, [.up e.tei e.sapi]) := by unfold dlEst; rw [hf]
      rw [e2] at e1
      exact ⟨_, _, red _ e1, fun g => absurd (yf hf) g, fun _ => ⟨fun _ => rfl, (fun q => by rw [c1] at q; cases q), (fun q => by rw [c1] at q; rcases q with q | q <;> cases q)⟩⟩
  · by_cases c2 : rd32 d 0 = 0x1108
    · have e1 : signRead false x s e = .ok (dlRel x s e) := by
        unfold signRead; rw [hd]; simp only [Option.map_some, tk]
        rw [if_neg hn, if_neg (by rw [c2]; decide), if_neg (by rw [c2]; decide), if_pos (show rd32 d 0 = DL_RELEASE_IND from c2)]
      cases hf : findLink s.links e.tei e.sapi with
      | none =>
        have e2 : dlRel x s e = (x, s, []) := by unfold dlRel; rw [hf]
        rw [e2] at e1
        exact ⟨s, [], red _ e1, fun _ => rfl, fun g => absurd g (nf.1 hf)⟩
      | some k =>
        have e2 : dlRel x s e = (x, s, [.down e.tei e.sapi]) := by unfold dlRel; rw [hf]
        rw [e2] at e1
        exact ⟨_, _, red _ e1, fun g => absurd (yf hf) g, fun _ => ⟨fun q => absurd q c1, fun _ => rfl, (fun q => by rw [c2] at q; rcases q with q | q <;> cases q)⟩⟩
    · by_cases c3 : rd32 d 0 = 0x3008 ∨ rd32 d 0 = 0x3108
      · have e1 : signRead false x s e = dlData false x s e d := by
          unfold signRead; rw [hd]; simp only [Option.map_some, tk]
          rw [if_neg hn, if_neg (by rcases c3 with c | c <;> rw [c] <;> decide), if_neg (show ¬ rd32 d 0 = DL_ESTABLISH_IND from c1), if_neg (show ¬ rd32 d 0 = DL_RELEASE_IND from c2),
            if_pos (show rd32 d 0 = DL_DATA_IND ∨ rd32 d 0 = DL_UNITDATA_IND from c3)]
        cases hf : findLink s.links e.tei e.sapi with
        | none =>
          have e2 : dlData false x s e d = .ok (x, s, []) := by unfold dlData; rw [if_neg ln, hf]; rfl
          rw [e2] at e1
          exact ⟨s, [], red _ e1, fun _ => rfl, fun g => absurd g (nf.1 hf)⟩
        | some k =>
          have e2 : dlData false x s e d = .ok (x, s, [.rxLink e.tei e.sapi (d.drop 8)]) := by unfold dlData; rw [if_neg ln, hf]; rfl
          rw [e2] at e1
          exact ⟨_, _, red _ e1, fun g => absurd (yf hf) g, fun _ => ⟨fun q => absurd q c1, fun q => absurd q c2, fun _ => rfl⟩⟩
      · rcases hp with q | q | q | q
        · exact absurd q c1
        · exact absurd q c2
        · exact absurd (.inl q) c3
        · exact absurd (.inr q) c3

example : look 1 (run card (init fun _ => false) [.config 0 1 .sign, .update 0, .addLink 0 1 25 62, .event 0 1 (got (head 0x1008 0) 25 62 9), .event 0 1 (got (head 0x1008 0) 26 62 8),
      .event 0 1 (got (head 0x3008 0 ++ [7]) 25 62), .send 0 1 ⟨25, 62, 64, [5]⟩, .event 0 1 (writable 9)]) =
    .ok ([((0, 1), .socket .lapdNt 101), ((0, 1), .bind 101 0 0), ((0, 1), .up 25 62), ((0, 1), .rxLink 25 62 [7]), ((0, 1), .sendTo 101 9 [4, 0x30, 0, 0, 0, 0, 0, 0, 5] 9), ((0, 1), .free ⟨25, 62, 64, [5]⟩)],
      ⟨.sign, .sign, 101, true, false, false, true, false, [], [⟨25, 62, 9⟩]⟩) := by decide +kernel

/-! ### C150 -/

/-- C150: Sa bits are sent in one frame of 12 octets to the descriptor of time slot 16, and nothing else happens; the driver with LAPD in this library does not support them and does nothing -/
theorem C150_sa_exact_partial (E : Env) (w : W) (l : Nat) (b : Byte) (n : Int) :
    step E w (.sa l b n) = .ok (w, if w.ul l then [] else [((l, 16), .send (w.s l 16).fd [1, 7, 0, 0, 0x3f, 0x7f, 0, 0, b, 1, 0, 0] n)]) := by
  have hb : wr32 (256 + b.toNat) = [b, 1, 0, 0] := by
    have : ∀ b : Byte, wr32 (256 + b.toNat) = [b, 1, 0, 0] := by decide +kernel
    exact this b
  simp only [step]
  by_cases g : w.ul l = true
  · rw [if_pos g, if_pos g]
  · rw [if_neg g, if_neg g]
    unfold saBits
    rw [hb]; rfl

/-- C150: the bits that are sent are those the other side's indication is passed on with -/
theorem C150_sa_round (b : Byte) : Means (rd32 [1, 7, 0, 0, 0x3f, 0x7f, 0, 0, b, 1, 0, 0] 8) (.sa b.toNat) := by
  have h : rd32 [1, 7, 0, 0, 0x3f, 0x7f, 0, 0, b, 1, 0, 0] 8 = 256 + b.toNat := by
    simp [rd32, at0]; omega
  rw [h]
  exact .sa b.toNat b.isLt

/-- C150: if time slot 16 is not in use, Sa bits are sent to descriptor 0, which does not belong to the line -/
theorem C150_unused_violated : ∃ w a, run card (init fun _ => false) [.config 0 1 .raw, .update 0, .sa 0 0x55 (-1)] = .ok (w, a) ∧ ofSlot 0 16 a = [.send 0 [1, 7, 0, 0, 0x3f, 0x7f, 0, 0, 0x55, 1, 0, 0] (-1)] := by
  have k : look 16 (run card (init fun _ => false) [.config 0 1 .raw, .update 0, .sa 0 0x55 (-1)]) =
      .ok ([((0, 1), .socket .bRaw 101), ((0, 1), .bind 101 0 1), ((0, 1), .activate 101), ((0, 16), .send 0 [1, 7, 0, 0, 0x3f, 0x7f, 0, 0, 0x55, 1, 0, 0] (-1))],
        ⟨.none, .none, 0, false, false, false, false, false, [], []⟩) := by decide +kernel
  obtain ⟨w, e, g⟩ := look_ok k
  exact ⟨w, _, e, rfl⟩

example : look 16 (run card (init fun _ => false) [.config 0 16 .hdlc, .update 0, .sa 0 0xa5 12]) =
    .ok ([((0, 16), .socket .ntE1 116), ((0, 16), .bind 116 0 0), ((0, 16), .activate 116), ((0, 16), .send 116 [1, 7, 0, 0, 0x3f, 0x7f, 0, 0, 0xa5, 1, 0, 0] 12)],
      ⟨.hdlc, .hdlc, 116, true, false, false, false, false, [], []⟩) := by decide +kernel

end Verif.Misdn
