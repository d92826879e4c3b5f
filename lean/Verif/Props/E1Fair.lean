import Verif.Props.E1Cfg
/-!
# C44: what holds of the serving order while further messages are sent
-/
set_option maxRecDepth 10000
namespace Verif.E1

/-- a signalling timeslot with its links -/
structure Ready (st : St) (r : TsRef) (ls : List Nat) (d : Int) : Prop where
  at_ : At st r
  u : (st.ts r).u = .sign ls d
  line : (st.ts r).line = some r.1
  tmr : (st.ts r).tmr ≠ .junk
  links : ∀ k ∈ ls, ∃ x, st.link k = some x ∧ x.ts = r

/-- what was handed to the driver for a timeslot: the messages, with the link they were sent on -/
def txs (r : TsRef) (acts : List Act) : List (Nat × Msg) :=
  acts.filterMap fun | .tx r' (some k) m => if r' = r then some (k, m) else none | _ => none

theorem txs_append (r : TsRef) (a b : List Act) : txs r (a ++ b) = txs r a ++ txs r b := List.filterMap_append

theorem txs_quiet (r : TsRef) : ∀ {acts : List Act}, (∀ a ∈ acts, Quiet a) → txs r acts = [] := by
  intro acts
  induction acts with
  | nil => intro _; rfl
  | cons a as ih =>
    intro h
    have ha := h a List.mem_cons_self
    have := ih (fun x hx => h x (List.mem_cons_of_mem _ hx))
    unfold txs at this ⊢
    cases a with
    | tx r o m => cases o with | none => exact this | some j => exact False.elim ha
    | _ => exact this

/-- the operations that concern us: the driver fetches a message, or a message is sent on one of the given links -/
def Traffic (r : TsRef) (js : List Nat) (op : Op) : Prop := (∃ i b, op = .txTs r i b) ∨ ∃ j m, j ∈ js ∧ op = .sendmsg (some j) m

/-- how often the driver fetches a message -/
def fetches : List Op → Nat
  | [] => 0
  | .txTs _ _ _ :: ops => fetches ops + 1
  | _ :: ops => fetches ops

theorem ready_tx {st : St} {r : TsRef} {ls : List Nat} {d : Int} (h : Ready st r ls d) (i : Nat) (b : List Byte) :
    (backlog st ls = [] ∧ step st (.txTs r i b) = .ok (st, [])) ∨
    ∃ k m x, k ∈ ls ∧ (∃ ms, st.link k = some x ∧ x.tx = m :: ms ∧ step st (.txTs r i b) = .ok (setLink st k (some { x with tx := ms }), [.tx r (some k) m]) ∧
      Ready (setLink st k (some { x with tx := ms })) r ls d ∧ ∃ a c, ls = a ++ k :: c ∧ ∀ j ∈ a, queueOf st j = []) := by
  have hl : ∀ k ∈ ls, ∃ x, st.link k = some x := fun k hk => by obtain ⟨x, hx, -⟩ := h.links k hk; exact ⟨x, hx⟩
  rcases txScan_spec st ls hl with ⟨h1, h2⟩ | ⟨a, k, c, x, m, ms, e, hk, hq, h2, h1⟩
  · left
    refine ⟨backlog_idle h2, ?_⟩
    simp only [step, txTs, tsAt_ok h.at_, bind_ok, h.u, h1]
    rfl
  · right
    refine ⟨k, m, x, by rw [e]; simp, ms, hk, hq, ?_, ⟨h.at_, h.u, h.line, h.tmr, ?_⟩, a, c, e, h2⟩
    · simp only [step, txTs, tsAt_ok h.at_, bind_ok, h.u, h1]
      rfl
    · intro j hj
      obtain ⟨y, hy, ht⟩ := h.links j hj
      by_cases hjk : j = k
      · subst hjk
        rw [hk] at hy
        cases hy
        exact ⟨{ x with tx := ms }, by simp [setLink], ht⟩
      · exact ⟨y, by simp [setLink, hjk, hy], ht⟩

theorem ready_send {st : St} {r : TsRef} {ls : List Nat} {d : Int} (h : Ready st r ls d) {j : Nat} (hj : j ∈ ls) (m : Msg) :
    ∃ st' acts, step st (.sendmsg (some j) m) = .ok (st', acts) ∧ Ready st' r ls d ∧ txs r acts = [] ∧
      ∀ k, queueOf st' k = queueOf st k ++ if k = j then [m] else [] := by
  obtain ⟨x, hx, ht⟩ := h.links j hj
  obtain ⟨⟨y, hy⟩, h32⟩ := id h.at_
  subst ht
  have hq := tracePcap_quiet (st.ts x.ts) y true x.sapi x.tei m
  have hlinks : ∀ k ∈ ls, ∃ z, (setLink st j (some { x with tx := x.tx ++ [m] })).link k = some z ∧ z.ts = x.ts := by
    intro k hk
    obtain ⟨z, hz, hzt⟩ := h.links k hk
    by_cases hkj : k = j
    · exact ⟨{ x with tx := x.tx ++ [m] }, by simp [setLink, hkj], rfl⟩
    · exact ⟨z, by simp [setLink, hkj, hz], hzt⟩
  have hqueue : ∀ k, queueOf (setLink st j (some { x with tx := x.tx ++ [m] })) k = queueOf st k ++ if k = j then [m] else [] := by
    intro k
    by_cases hkj : k = j
    · subst hkj; simp [queueOf, setLink, hx]
    · simp [queueOf, setLink, hkj]
  simp only [step, sendmsg, linkAt_ok hx, bind_ok, tsAt_ok h.at_, lineOf, h.line, lineAt_ok hy, h.u]
  cases htm : (st.ts x.ts).tmr with
  | junk => exact absurd htm h.tmr
  | idle =>
    simp only [timerIdle, htm, bind_ok, if_true]
    refine ⟨_, _, rfl, ⟨h.at_, ?_, ?_, ?_, hlinks⟩, ?_, hqueue⟩
    · simp [wantWrite, setTs, h.u]
    · simp [wantWrite, setTs, h.line]
    · simp [wantWrite, setTs, htm]
    · show txs x.ts (tracePcap (st.ts x.ts) y true x.sapi x.tei m) = []
      exact txs_quiet x.ts hq
  | pending =>
    simp only [timerIdle, htm, bind_ok, Bool.false_eq_true, if_false]
    exact ⟨_, _, rfl, ⟨h.at_, h.u, h.line, h.tmr, hlinks⟩, txs_quiet x.ts hq, hqueue⟩

theorem backlog_append (st : St) (a b : List Nat) : backlog st (a ++ b) = backlog st a ++ backlog st b := List.flatMap_append

/-- sending on the last of the links, or on another link, only appends -/
theorem backlog_send {st st' : St} {p c : List Nat} {k j : Nat} {m : Msg} (hn : (p ++ k :: c).Nodup) (hj : j ∈ k :: c)
    (hq : ∀ i, queueOf st' i = queueOf st i ++ if i = j then [m] else []) : backlog st (p ++ [k]) <+: backlog st' (p ++ [k]) := by
  have hp : ∀ i ∈ p, queueOf st' i = queueOf st i := by
    intro i hi
    have : i ≠ j := (List.nodup_append.1 hn).2.2 i hi j hj
    rw [hq i, if_neg this, List.append_nil]
  rw [backlog_append, backlog_append, backlog_congr hp]
  refine List.prefix_append_right_inj _ |>.2 ?_
  refine ⟨(if k = j then [m] else []).map fun x => (k, x), ?_⟩
  simp only [backlog, List.flatMap_cons, List.flatMap_nil, List.append_nil, hq k, List.map_append]

theorem fair_run {r : TsRef} {ls : List Nat} {d : Int} (hn : ls.Nodup) {p c : List Nat} {k : Nat} (hs : ls = p ++ k :: c) :
    ∀ (ops : List Op) (st : St), Ready st r ls d → (∀ op ∈ ops, Traffic r (k :: c) op) →
      ∃ st' acts, run st ops = .ok (st', acts) ∧ (backlog st (p ++ [k])).take (fetches ops) <+: txs r acts := by
  intro ops
  induction ops with
  | nil => intro st _ _; exact ⟨st, [], rfl, by simp [fetches]⟩
  | cons op ops ih =>
    intro st h ho
    have h2 : ∀ o ∈ ops, Traffic r (k :: c) o := fun o hm => ho o (List.mem_cons_of_mem _ hm)
    rcases ho op List.mem_cons_self with ⟨i, b, rfl⟩ | ⟨j, m, hj, rfl⟩
    · rcases ready_tx h i b with ⟨h0, h1⟩ | ⟨k0, m, x, -, ms, hx, hq, h1, hr, a, c0, e, hi⟩
      · obtain ⟨st', acts, hrun, -⟩ := ih st h h2
        refine ⟨st', [] ++ acts, by simp only [run, h1, bind_ok, hrun], ?_⟩
        have : backlog st (p ++ [k]) = [] := by
          have e2 : ls = (p ++ [k]) ++ c := by rw [hs]; simp
          rw [e2, backlog_append] at h0
          exact (List.append_eq_nil_iff.1 h0).1
        rw [this, List.take_nil]
        exact List.nil_prefix
      · obtain ⟨st', acts, hrun, hpre⟩ := ih _ hr h2
        refine ⟨st', [.tx r (some k0) m] ++ acts, by simp only [run, h1, bind_ok, hrun], ?_⟩
        have e2 : a ++ k0 :: c0 = (p ++ [k]) ++ c := by rw [← e, hs]; simp
        have ht : txs r ([.tx r (some k0) m] ++ acts) = (k0, m) :: txs r acts := by simp [txs]
        rcases List.append_eq_append_iff.1 e2 with ⟨a', e3, e4⟩ | ⟨a', e3, e4⟩
        · cases a' with
          | nil =>
            rw [List.append_nil] at e3
            rw [e3, backlog_idle hi, List.take_nil]
            exact List.nil_prefix
          | cons z a' =>
            injection e4 with e5 e6
            subst e5
            have hnl : (a ++ k0 :: a').Nodup := by
              have : (p ++ [k] ++ c).Nodup := by rw [← e2, ← e]; exact hn
              rw [e3] at this
              exact (List.nodup_append.1 this).1
            rw [e3] at hpre ⊢
            rw [backlog_take hnl hx hq hi, ht]
            simp only [fetches, List.take_succ_cons]
            exact List.cons_prefix_cons.2 ⟨rfl, hpre⟩
        · have : backlog st (p ++ [k]) = [] := backlog_idle (fun z hz => hi z (by rw [e3]; exact List.mem_append_left _ hz))
          rw [this, List.take_nil]
          exact List.nil_prefix
    · have hjl : j ∈ ls := by rw [hs]; exact List.mem_append_right _ hj
      obtain ⟨st1, a1, e1, hr, t1, q1⟩ := ready_send h hjl m
      obtain ⟨st', acts, hrun, hpre⟩ := ih st1 hr h2
      refine ⟨st', a1 ++ acts, by simp only [run, e1, bind_ok, hrun], ?_⟩
      rw [txs_append, t1, List.nil_append]
      obtain ⟨w, hw⟩ := backlog_send (hs ▸ hn) hj q1
      refine List.IsPrefix.trans ?_ hpre
      rw [← hw]
      exact ⟨_, (List.take_append ..).symm⟩

/-- C44, partially: after every history, let `k` be a link of a signalling timeslot.  Whatever is sent from then on on this link and on those that come
later in the list, the messages then queued on the links up to `k` are transmitted first, in the order of the list, the oldest first: a message with `b`
messages before it goes out when the driver fetches for the `b+1`st time, at the latest.  Only messages sent on links earlier in the list can delay it
without end, as `fair_violated` shows they do. -/
theorem fair_later_partial {pre : List Op} (ha : AdmRun St.init pre) :
    ∃ st acts, run St.init pre = .ok (st, acts) ∧
      ∀ r, At st r → HasType st r .sign → ∀ p k c, linksOf (st.ts r).u = p ++ k :: c → ∀ ops, (∀ op ∈ ops, Traffic r (k :: c) op) →
        ∃ st' acts', run st ops = .ok (st', acts') ∧ (backlog st (p ++ [k])).take (fetches ops) <+: txs r acts' := by
  obtain ⟨st, acts, hr, hr', hi⟩ := runs_of inv_init ha
  refine ⟨st, acts, hr, ?_⟩
  intro r hat hty p k c hl ops ho
  have hto := hi.ts r hat
  obtain ⟨ls, d, hu⟩ := sign_of_type hty hto.notStale
  have hn := hi.lsNodup r hat
  have hls : ls = p ++ k :: c := by rw [hu] at hl; exact hl
  refine fair_run (by rw [hu] at hn; exact hn) hls ops st ⟨hat, hu, hto.line, hto.sign ⟨ls, d, hu⟩, ?_⟩ ho
  intro j hj
  obtain ⟨y, y1, y2⟩ := hi.ls r hat j (by rw [hu]; exact hj)
  exact ⟨y, y1, y2.1⟩

/-- two links; messages on both, then traffic on the second while the driver fetches -/
example : after (setup ++ [.sendmsg (some 1) ⟨1, [1]⟩, .sendmsg (some 0) ⟨2, [2]⟩]) (fun st _ =>
    linksOf (st.ts (0, 0)).u == [0, 1] && backlog st [0, 1] == [(0, ⟨2, [2]⟩), (1, ⟨1, [1]⟩)]) = true := by decide +kernel
example : (∀ op ∈ [Op.sendmsg (some 1) ⟨3, [3]⟩, .txTs (0, 0) 9 [], .sendmsg (some 1) ⟨4, [4]⟩, .txTs (0, 0) 9 []], Traffic (0, 0) [1] op) := by
  intro op h
  simp only [List.mem_cons, List.not_mem_nil, or_false] at h
  rcases h with rfl | rfl | rfl | rfl
  · exact .inr ⟨1, _, by simp, rfl⟩
  · exact .inl ⟨9, [], rfl⟩
  · exact .inr ⟨1, _, by simp, rfl⟩
  · exact .inl ⟨9, [], rfl⟩

end Verif.E1
