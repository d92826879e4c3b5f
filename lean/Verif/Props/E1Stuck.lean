import Verif.Props.E1Cfg
import Verif.Props.IpaServer
/-!
# C86, C101: the defects, everywhere
-/
set_option maxRecDepth 10000
namespace Verif.E1

/-- C86 is false whenever it matters: in every history that destroys a link on the list of a timeslot that has not asked for write events (it waits for
the delay timer), the timer is stopped; what is queued on every other link of the timeslot stays queued, with neither an event nor a timer -/
theorem destroy_stuck_every_violated {ops : List Op} {k j : Nat} (ha : AdmRun St.init (ops ++ [.destroyBegin k, .destroyEnd k]))
    {st : St} {acts : List Act} (hr : run St.init ops = .ok (st, acts)) {x y : Link} (hx : st.link k = some x) (hon : x.onList = true)
    (hy : st.link j = some y) (hj : j ≠ k) (harm : (st.ts x.ts).armed = false) :
    ∃ st' acts', run St.init (ops ++ [.destroyBegin k, .destroyEnd k]) = .ok (st', acts') ∧ st'.link j = some y ∧
      (st'.ts x.ts).armed = false ∧ (st'.ts x.ts).tmr = .idle := by
  obtain ⟨st', acts', h, -, -⟩ := runs_of inv_init ha
  refine ⟨st', acts', h, ?_⟩
  rw [run_append, hr, bind_ok] at h
  simp only [run, step, destroyBegin, linkAt_ok hx, bind_ok, hon, if_true] at h
  cases e1 : tsAt st x.ts with
  | error e => rw [e1] at h; cases h
  | ok t =>
    have ht : t = st.ts x.ts := by
      unfold tsAt at e1
      split at e1
      · split at e1
        · cases e1; rfl
        · cases e1
      · cases e1
    rw [e1] at h
    simp only [bind_ok] at h
    cases e2 : unlinkTs t k with
    | error e => rw [e2] at h; cases h
    | ok t2 =>
      have h2 : t2.armed = t.armed := by
        unfold unlinkTs at e2
        split at e2
        · split at e2
          · cases e2; rfl
          · cases e2
        · cases e2
      rw [e2] at h
      simp only [bind_ok] at h
      cases e3 : timerDel t2 with
      | error e => rw [e3] at h; cases h
      | ok t3 =>
        have h3 : t3.armed = t2.armed ∧ t3.tmr = .idle := by
          unfold timerDel at e3
          split at e3
          · cases e3
          · cases e3; exact ⟨rfl, rfl⟩
        rw [e3] at h
        simp only [bind_ok] at h
        cases e4 : lineOf st t3 with
        | error e => rw [e4] at h; cases h
        | ok l =>
          rw [e4] at h
          simp only [bind_ok, Except.map] at h
          have hl : (setLink (setTs st x.ts t3) k (some { x with onList := false, tx := [] })).link k =
            some { x with onList := false, tx := [] } := by simp [setLink]
          simp only [destroyEnd, linkAt_ok hl, bind_ok] at h
          cases e5 : tsAt (setLink (setTs st x.ts t3) k (some { x with onList := false, tx := [] })) x.ts with
          | error e => rw [e5] at h; cases h
          | ok t5 =>
            rw [e5] at h
            simp only [bind_ok] at h
            cases e6 : t5.line with
            | none => rw [e6] at h; cases h
            | some ln =>
              rw [e6] at h
              simp only [bind_ok] at h
              cases e7 : useChange (setLink (setTs st x.ts t3) k (some { x with onList := false, tx := [] })) ln uLink (-1) with
              | error e => rw [e7] at h; cases h
              | ok p =>
                obtain ⟨q, a7⟩ := p
                have hq : q.link = (setLink (setTs st x.ts t3) k (some { x with onList := false, tx := [] })).link ∧
                    q.ts = (setLink (setTs st x.ts t3) k (some { x with onList := false, tx := [] })).ts := by
                  unfold useChange at e7
                  cases e8 : lineAt (setLink (setTs st x.ts t3) k (some { x with onList := false, tx := [] })) ln with
                  | error e => rw [e8] at e7; cases e7
                  | ok z =>
                    rw [e8] at e7
                    simp only [bind_ok] at e7
                    split at e7
                    · cases e7; exact ⟨rfl, rfl⟩
                    · split at e7
                      · cases e7
                      · cases e7; exact ⟨rfl, rfl⟩
                rw [e7] at h
                simp only [bind_ok] at h
                cases h
                refine ⟨?_, ?_, ?_⟩
                · simp [setLink, hq.1, hj, setTs, hy]
                · simp [setLink, hq.2, setTs, h3.1, h2, ht, harm]
                · simp [setLink, hq.2, setTs, h3.2]

/-- such a history: two links with a message each, the first was sent, so the timeslot waits for the delay timer -/
example : AdmRun St.init (stuck.take (stuck.length - 2) ++ [.destroyBegin 0, .destroyEnd 0]) ∧
    after (stuck.take (stuck.length - 2)) (fun st _ => (st.link 0).any (fun x => x.onList && (x.ts == (0, 0))) &&
      ((st.link 1).any (fun y => y.tx == [⟨2, [2]⟩]) && !(st.ts (0, 0)).armed)) = true :=
  ⟨admRunB_ok (by decide +kernel), by decide +kernel⟩

end Verif.E1

namespace Verif.Ipa.Srv

/-- C101: after every history, opening a link that is open, if the socket can be created, corrupts the registration of the descriptors instead of being
refused -/
theorem link_open_twice_every_violated {ops : List LOp} (ha : LAdmRun Link.create ops) :
    ∃ l as, Link.create.run ops = .ok (l, as) ∧ (l.fd.isSome = true → ∀ f r, l.step (.open (.ok f) r) = .error .badptr) := by
  have key : ∀ (ops : List LOp) (l : Link), l.reg = l.fd.isSome → LAdmRun l ops →
      ∃ l' as, l.run ops = .ok (l', as) ∧ l'.reg = l'.fd.isSome := by
    intro ops
    induction ops with
    | nil => intro l h _; exact ⟨l, [], rfl, h⟩
    | cons op ops ih =>
      intro l hi ha
      obtain ⟨l1, a, h1, hi1, -⟩ := link_step hi ha.1
      obtain ⟨l2, as, h2, p2⟩ := ih l1 hi1 (ha.2 l1 a h1)
      exact ⟨l2, a ++ as, by simp only [Link.run, h1, bind_ok, h2], p2⟩
  obtain ⟨l, as, h1, h2⟩ := key ops _ rfl ha
  refine ⟨l, as, h1, fun h f r => ?_⟩
  simp only [Link.step, Link.open, h2.trans h, if_true]
  rfl

/-- an open link -/
example : LAdmRun Link.create [.open (.ok 5) true] := ⟨rfl, fun _ _ _ => trivial⟩

end Verif.Ipa.Srv
