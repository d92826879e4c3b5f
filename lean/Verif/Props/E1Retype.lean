import Verif.Props.E1Cfg
/-!
# C45, C87: timeslots of the wrong type, everywhere
-/
set_option maxRecDepth 10000
namespace Verif.E1

/-- the types whose list heads do not overlay the timer -/
def Cfg.small : Cfg → Prop
  | .raw _ | .hdlc _ | .none => True
  | _ => False

theorem retype_small {st : St} {r : TsRef} {ls : List Nat} {d : Int} (hat : At st r) (hu : (st.ts r).u = .sign ls d) {c : Cfg} (hc : c.small)
    (l : Option Nat) : ∃ t, config st r l c = .ok (setTs st r t, 0, []) ∧ t.u.type = c.type ∧ c.type ≠ .sign ∧ (∀ a b, t.u ≠ .sign a b) ∧ t.line = l := by
  cases c with
  | trau cb => exact hc.elim
  | i460 j => exact hc.elim
  | sign => exact hc.elim
  | raw cb =>
    refine ⟨{ st.ts r with u := .raw cb [], line := l }, ?_, rfl, (fun h => nomatch h), (fun _ _ h => (nomatch h)), rfl⟩
    simp only [config, configRaw, tsAt_ok hat, bind_ok, sameType, hu, cleanup, U.type]
    rfl
  | hdlc cb =>
    refine ⟨{ st.ts r with u := .hdlc cb [], line := l }, ?_, rfl, (fun h => nomatch h), (fun _ _ h => (nomatch h)), rfl⟩
    simp only [config, configHdlc, tsAt_ok hat, bind_ok, sameType, hu, cleanup, U.type]
    rfl
  | none =>
    refine ⟨{ st.ts r with u := .none, line := l }, ?_, rfl, (fun h => nomatch h), (fun _ _ h => (nomatch h)), rfl⟩
    simp only [config, configNone, tsAt_ok hat, bind_ok, sameType, hu, cleanup, U.type]
    rfl

/-- C45 is false, everywhere: after every history, configuring a signalling timeslot that has links as raw, HDLC or unused returns 0 and changes the
type; the links stay, and destroying any of them, as well as sending on it, then follows invalid pointers -/
theorem retype_every_violated {ops : List Op} (ha : AdmRun St.init ops) :
    ∃ st acts, run St.init ops = .ok (st, acts) ∧
      ∀ r, At st r → HasType st r .sign → ∀ k ∈ linksOf (st.ts r).u, ∀ c : Cfg, c.small →
        ∃ st', config st r (some r.1) c = .ok (st', 0, []) ∧ HasType st' r c.type ∧ ¬ HasType st' r .sign ∧ LinkLive st' k ∧
          destroyBegin st' k = .error .badptr ∧ ∀ m, sendmsg st' (some k) m = .error .badptr := by
  obtain ⟨st, acts, hr, hr', hi⟩ := runs_of inv_init ha
  refine ⟨st, acts, hr, ?_⟩
  intro r hat hty k hk c hc
  have hto := hi.ts r hat
  obtain ⟨ls, d, hu⟩ := sign_of_type hty hto.notStale
  obtain ⟨y, y1, y2, y3⟩ := hi.ls r hat k hk
  obtain ⟨t, e, t1, t2, t3, t4⟩ := retype_small hat hu hc (some r.1)
  have hat' : At (setTs st r t) r := hat
  have hts : (setTs st r t).ts r = t := by simp [setTs]
  have hl : (setTs st r t).link k = some y := y1
  subst y2
  refine ⟨_, e, by unfold HasType; rw [hts, t1], by unfold HasType; rw [hts, t1]; exact t2, ⟨y, y1⟩, ?_, fun m => ?_⟩
  · simp only [destroyBegin, linkAt_ok hl, bind_ok, y3, if_true, tsAt_ok hat', hts]
    unfold unlinkTs
    split
    · rename_i h; exact absurd h (t3 _ _)
    · rfl
  · obtain ⟨⟨z, hz⟩, h32⟩ := id hat'
    simp only [sendmsg, linkAt_ok hl, bind_ok, tsAt_ok hat', lineOf, hts, t4]
    simp only [lineAt_ok hz, bind_ok]

/-- such a timeslot is there after the usual set-up -/
example : after setup (fun st _ => atB st (0, 0) && ((st.ts (0, 0)).u.type == .sign && (linksOf (st.ts (0, 0)).u == [0, 1]))) = true := by decide +kernel
example : (Cfg.raw 5).small := trivial

/-- C87 is false on every timeslot that is not a signalling timeslot: after every history, an event for it walks over other members of the union as if
they were the list of links -/
theorem event_type_every_violated {ops : List Op} (ha : AdmRun St.init ops) :
    ∃ st acts, run St.init ops = .ok (st, acts) ∧
      ∀ r, At st r → ¬ HasType st r .sign → ∀ evt tei sapi, event st r evt tei sapi = .error .badptr := by
  obtain ⟨st, acts, hr, hr', hi⟩ := runs_of inv_init ha
  refine ⟨st, acts, hr, ?_⟩
  intro r hat hty evt tei sapi
  have h : lookup st (st.ts r) tei sapi = .error .badptr := by
    unfold lookup
    split
    · rename_i h; exact absurd (by unfold HasType; rw [h]; rfl) hty
    · rfl
  simp only [event, tsAt_ok hat, bind_ok, h]
  rfl

/-- such a timeslot is there after the usual set-up -/
example : after setup (fun st _ => atB st (0, 1) && !((st.ts (0, 1)).u.type == .sign)) = true := by decide +kernel

end Verif.E1
