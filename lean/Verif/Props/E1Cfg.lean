import Verif.Props.E1
/-!
# More properties and defects of the E1 input core: serving order, timeslot configuration, clones, wake-up,
# message loss, timeslot numbers, pcap descriptors
-/
set_option maxRecDepth 10000
namespace Verif.E1

/-! ## C44: what holds of the serving order -/

/-- the queued messages of a list of links, with their link, in the order of the list -/
def backlog (st : St) (ls : List Nat) : List (Nat × Msg) :=
  ls.flatMap fun k => (queueOf st k).map fun m => (k, m)

theorem backlog_idle {st : St} {ls : List Nat} (h : ∀ k ∈ ls, queueOf st k = []) : backlog st ls = [] := by
  unfold backlog
  rw [List.flatMap_eq_nil_iff]
  intro k hk; rw [h k hk]; rfl

theorem backlog_congr {st st' : St} {ls : List Nat} (h : ∀ k ∈ ls, queueOf st' k = queueOf st k) :
    backlog st' ls = backlog st ls := by
  induction ls with
  | nil => rfl
  | cons k r ih =>
    unfold backlog at ih ⊢
    rw [List.flatMap_cons, List.flatMap_cons, ih (fun j hj => h j (List.mem_cons_of_mem _ hj)), h k List.mem_cons_self]

theorem backlog_take {st : St} {a b : List Nat} {k : Nat} {x : Link} {m : Msg} {ms : List Msg}
    (hn : (a ++ k :: b).Nodup) (hx : st.link k = some x) (hq : x.tx = m :: ms) (ha : ∀ j ∈ a, queueOf st j = []) :
    backlog st (a ++ k :: b) =
      (k, m) :: backlog (setLink st k (some { x with tx := ms })) (a ++ k :: b) := by
  have hka : k ∉ a := by
    intro hm
    rw [List.nodup_append] at hn
    exact hn.2.2 k hm k List.mem_cons_self rfl
  have hkb : k ∉ b := by
    rw [List.nodup_append] at hn
    exact (List.nodup_cons.1 hn.2.1).1
  have hother : ∀ j, j ≠ k → queueOf (setLink st k (some { x with tx := ms })) j = queueOf st j := by
    intro j hj; simp [queueOf, setLink, hj]
  have hself : queueOf (setLink st k (some { x with tx := ms })) k = ms := by simp [queueOf, setLink]
  have hq' : queueOf st k = m :: ms := by simp [queueOf, hx, hq]
  have e1 : backlog st (a ++ k :: b) = backlog st a ++ (backlog st [k] ++ backlog st b) := by
    simp [backlog, List.flatMap_append, List.flatMap_cons]
  have e2 : ∀ s, backlog s (a ++ k :: b) = backlog s a ++ (backlog s [k] ++ backlog s b) := by
    intro s; simp [backlog, List.flatMap_append, List.flatMap_cons]
  rw [e1, e2, backlog_idle ha, backlog_idle (st := setLink st k _) (ls := a), backlog_congr (st' := setLink st k _) (ls := b) (st := st)]
  · simp [backlog, hq', hself]
  · intro j hj; exact hother j (fun e => hkb (e ▸ hj))
  · intro j hj; rw [hother j (fun e => hka (e ▸ hj))]; exact ha j hj

/-- one `e1inp_tx_ts` takes the head of the backlog -/
theorem tx_takes {st : St} {r : TsRef} {ls : List Nat} {d : Int} (hat : At st r) (hu : (st.ts r).u = .sign ls d)
    (hl : ∀ k ∈ ls, ∃ x, st.link k = some x) (hn : ls.Nodup) (i : Nat) (b : List Byte) :
    (backlog st ls = [] ∧ txTs st r i b = .ok (st, none)) ∨
    ∃ k m st', backlog st ls = (k, m) :: backlog st' ls ∧ txTs st r i b = .ok (st', some (some k, m)) ∧
      At st' r ∧ (st'.ts r).u = .sign ls d ∧ (∀ k ∈ ls, ∃ x, st'.link k = some x) := by
  simp only [txTs, tsAt_ok hat, bind_ok, hu]
  rcases txScan_spec st ls hl with ⟨h1, h2⟩ | ⟨a, k, c, x, m, ms, e, hk, hq, h2, h1⟩
  · left
    rw [h1]
    exact ⟨backlog_idle h2, rfl⟩
  · right
    rw [h1]
    refine ⟨k, m, setLink st k (some { x with tx := ms }), ?_, rfl, hat, hu, ?_⟩
    · subst e; exact backlog_take hn hk hq h2
    · intro j hj
      by_cases hjk : j = k
      · exact ⟨{ x with tx := ms }, by simp [setLink, hjk]⟩
      · obtain ⟨y, hy⟩ := hl j hj
        exact ⟨y, by simp [setLink, hjk, hy]⟩

theorem tx_drains {r : TsRef} {ls : List Nat} {d : Int} (i : Nat) (b : List Byte) (hn : ls.Nodup) :
    ∀ (n : Nat) (st : St), At st r → (st.ts r).u = .sign ls d → (∀ k ∈ ls, ∃ x, st.link k = some x) →
      ∃ st', run st (List.replicate n (.txTs r i b)) =
          .ok (st', ((backlog st ls).take n).map fun p => .tx r (some p.1) p.2) ∧
        backlog st' ls = (backlog st ls).drop n := by
  intro n
  induction n with
  | zero => intro st _ _ _; exact ⟨st, by simp [run], by simp⟩
  | succ n ih =>
    intro st hat hu hl
    rcases tx_takes hat hu hl hn i b with ⟨h0, h1⟩ | ⟨k, m, st1, h0, h1, h2, h3, h4⟩
    · obtain ⟨st', hr, hd⟩ := ih st hat hu hl
      refine ⟨st', ?_, by rw [hd, h0]; simp⟩
      have hs : step st (.txTs r i b) = .ok (st, []) := by simp only [step, h1, map_ok, txActs]
      simp only [List.replicate_succ, run, hs, bind_ok, hr, h0, List.take_nil, List.map_nil, List.nil_append]
    · obtain ⟨st', hr, hd⟩ := ih st1 h2 h3 h4
      refine ⟨st', ?_, by rw [hd, h0]; rfl⟩
      have hs : step st (.txTs r i b) = .ok (st1, [.tx r (some k) m]) := by simp only [step, h1, map_ok, txActs]
      simp only [List.replicate_succ, run, hs, bind_ok, hr, h0]
      rfl

/-- C44, partially: after every history, `n` transmissions of a signalling timeslot, with nothing sent on it in
the meantime, take the first `n` messages of the backlog (link by link in the order of the list, oldest first).
So a message with `b` messages before it in the backlog goes out with the `b+1`st transmission, and
everything is transmitted if the driver is served often enough.  Missing for fairness: with new messages
arriving on earlier links the wait is unbounded, see `fair_violated`. -/
theorem fair_partial {ops : List Op} (ha : AdmRun St.init ops) :
    ∃ st acts, run St.init ops = .ok (st, acts) ∧
      ∀ r, At st r → HasType st r .sign → ∀ n i b,
        ∃ st', run st (List.replicate n (.txTs r i b)) =
            .ok (st', ((backlog st (linksOf (st.ts r).u)).take n).map fun p => .tx r (some p.1) p.2) ∧
          backlog st' (linksOf (st.ts r).u) = (backlog st (linksOf (st.ts r).u)).drop n := by
  obtain ⟨st, acts, hr, hr', hi⟩ := runs_of inv_init ha
  refine ⟨st, acts, hr, ?_⟩
  intro r hat hty n i b
  obtain ⟨ls, d, hu⟩ := sign_of_type hty (hi.ts r hat).notStale
  have hn := hi.lsNodup r hat
  have hl : ∀ k ∈ ls, ∃ x, st.link k = some x := by
    intro k hk
    obtain ⟨y, y1, _⟩ := hi.ls r hat k (by rw [hu]; exact hk)
    exact ⟨y, y1⟩
  rw [hu] at hn ⊢
  exact tx_drains i b hn n st hat hu hl

/-- three queued messages on two links -/
example : after (setup ++ [.sendmsg (some 1) ⟨1, [1]⟩, .sendmsg (some 0) ⟨2, [2]⟩, .sendmsg (some 1) ⟨3, [3]⟩]) (fun st _ =>
    backlog st (linksOf (st.ts (0, 0)).u) == [(0, ⟨2, [2]⟩), (1, ⟨1, [1]⟩), (1, ⟨3, [3]⟩)]) = true := by decide +kernel

/-! ## C45: configuring timeslots -/

/-- C45 is false: on a signalling timeslot with an existing link, `e1inp_ts_config_raw` returns 0 and
changes the type; destroying the link then writes through stale list heads. -/
theorem retype_violated : ∃ ops st acts st', AdmRun St.init ops ∧ run St.init ops = .ok (st, acts) ∧
    At st (0, 0) ∧ LinkLive st 0 ∧ HasType st (0, 0) .sign ∧
    configRaw st (0, 0) (some 0) 5 = .ok (st', 0, []) ∧ HasType st' (0, 0) .raw ∧
    destroyBegin st' 0 = .error .badptr := by
  have h := after_ok (ops := setup) (p := fun st _ => atB st (0, 0) && ((st.link 0).isSome && ((st.ts (0, 0)).u.type == .sign &&
    (match configRaw st (0, 0) (some 0) 5 with
      | .ok (st', rc, a) => rc == 0 && (a == [] && ((st'.ts (0, 0)).u.type == .raw &&
          (match destroyBegin st' 0 with | .error e => e == .badptr | _ => false)))
      | _ => false)))) (by decide +kernel)
  obtain ⟨st, acts, hr, h⟩ := h
  simp only [Bool.and_eq_true, beq_iff_eq] at h
  obtain ⟨h1, h2, h3, h4⟩ := h
  cases hc : configRaw st (0, 0) (some 0) 5 with
  | error e => rw [hc] at h4; cases h4
  | ok p =>
    rw [hc] at h4
    obtain ⟨st', rc, a⟩ := p
    simp only [Bool.and_eq_true, beq_iff_eq] at h4
    obtain ⟨e1, e2, e3, e4⟩ := h4
    subst e1; subst e2
    refine ⟨setup, st, acts, st', admRunB_ok (by decide +kernel), hr, atB_ok h1, Option.isSome_iff_exists.1 h2, h3, hc, e3, ?_⟩
    cases hd : destroyBegin st' 0 with
    | ok _ => rw [hd] at e4; cases e4
    | error e => rw [hd] at e4; simp only [beq_iff_eq] at e4; rw [e4]

/-- C45, partially: configuring a timeslot for the type it already has (for an attached timeslot, with a line
passed) returns 0 and changes nothing, whatever is active on it -/
theorem config_same_partial {st : St} {r : TsRef} (hat : At st r) {l l' : Nat} (hl : (st.ts r).line = some l') :
    (∀ cb, HasType st r .trau → configTrau st r (some l) cb = .ok (st, 0, [])) ∧
    (∀ j, HasType st r .i460 → configI460 st r (some l) j = .ok (st, 0, [])) ∧
    (HasType st r .sign → configSign st r (some l) = .ok (st, 0, [])) ∧
    (∀ cb, HasType st r .raw → configRaw st r (some l) cb = .ok (st, 0, [])) ∧
    (∀ cb, HasType st r .hdlc → configHdlc st r (some l) cb = .ok (st, 0, [])) ∧
    (HasType st r .none → configNone st r (some l) = .ok (st, 0, [])) := by
  refine ⟨?_, ?_, ?_, ?_, ?_, ?_⟩
  · intro cb h
    unfold HasType at h
    simp only [configTrau, tsAt_ok hat, bind_ok, sameType, h, hl]
    rfl
  · intro cb h
    unfold HasType at h
    simp only [configI460, tsAt_ok hat, bind_ok, sameType, h, hl]
    rfl
  · intro h
    unfold HasType at h
    simp only [configSign, tsAt_ok hat, bind_ok, sameType, h, hl]
    rfl
  · intro cb h
    unfold HasType at h
    simp only [configRaw, tsAt_ok hat, bind_ok, sameType, h, hl]
    rfl
  · intro cb h
    unfold HasType at h
    simp only [configHdlc, tsAt_ok hat, bind_ok, sameType, h, hl]
    rfl
  · intro h
    unfold HasType at h
    simp only [configNone, tsAt_ok hat, bind_ok, sameType, h, hl]
    rfl

/-- the configuration of the timeslot as an application asks for it -/
inductive Cfg where
  | trau (cb : Nat) | i460 (junk : Demux.Dmx) | sign | raw (cb : Nat) | hdlc (cb : Nat) | none

def Cfg.type : Cfg → TsType
  | .trau _ => .trau
  | .i460 _ => .i460
  | .sign => .sign
  | .raw _ => .raw
  | .hdlc _ => .hdlc
  | .none => .none

/-- `e1inp_ts_config_*` -/
def config (st : St) (r : TsRef) (l : Option Nat) : Cfg → M (St × Int × List Act)
  | .trau cb => configTrau st r l cb
  | .i460 j => configI460 st r l j
  | .sign => configSign st r l
  | .raw cb => configRaw st r l cb
  | .hdlc cb => configHdlc st r l cb
  | .none => configNone st r l

/-- the operation of the history -/
def Cfg.op (r : TsRef) (l : Option Nat) : Cfg → Op
  | .trau cb => .configTrau r l cb
  | .i460 j => .configI460 r l j
  | .sign => .configSign r l
  | .raw cb => .configRaw r l cb
  | .hdlc cb => .configHdlc r l cb
  | .none => .configNone r l

/-- all six functions always return 0, also where the cleanup of the previous type failed -/
theorem config_rc {st st' : St} {r : TsRef} {l : Option Nat} {c : Cfg} {rc : Int} {acts : List Act}
    (h : config st r l c = .ok (st', rc, acts)) : rc = 0 := by
  cases c with
  | trau cb =>
    simp only [config, configTrau] at h
    cases h1 : tsAt st r with
    | error e => rw [h1, bind_err] at h; cases h
    | ok t =>
      rw [h1, bind_ok] at h
      split at h
      · exact (Prod.mk.inj (Prod.mk.inj (Except.ok.inj h)).2).1.symm
      · cases h2 : cleanup t with
        | error e => rw [h2, bind_err] at h; cases h
        | ok p =>
          rw [h2, bind_ok] at h
          cases h3 : overlay p.1 with
          | error e => simp only [h3, bind_err] at h; cases h
          | ok _ =>
            simp only [h3, bind_ok] at h
            exact (Prod.mk.inj (Prod.mk.inj (Except.ok.inj h)).2).1.symm
  | i460 cb =>
    simp only [config, configI460] at h
    cases h1 : tsAt st r with
    | error e => rw [h1, bind_err] at h; cases h
    | ok t =>
      rw [h1, bind_ok] at h
      split at h
      · exact (Prod.mk.inj (Prod.mk.inj (Except.ok.inj h)).2).1.symm
      · cases h2 : cleanup t with
        | error e => rw [h2, bind_err] at h; cases h
        | ok p =>
          rw [h2, bind_ok] at h
          cases h3 : overlay p.1 with
          | error e => simp only [h3, bind_err] at h; cases h
          | ok _ =>
            simp only [h3, bind_ok] at h
            exact (Prod.mk.inj (Prod.mk.inj (Except.ok.inj h)).2).1.symm
  | sign =>
    simp only [config, configSign] at h
    cases h1 : tsAt st r with
    | error e => rw [h1, bind_err] at h; cases h
    | ok t =>
      rw [h1, bind_ok] at h
      split at h
      · exact (Prod.mk.inj (Prod.mk.inj (Except.ok.inj h)).2).1.symm
      · cases h2 : cleanup t with
        | error e => rw [h2, bind_err] at h; cases h
        | ok p =>
          rw [h2, bind_ok] at h
          cases h3 : signDelay st l with
          | error e => simp only [h3, bind_err] at h; cases h
          | ok _ =>
            simp only [h3, bind_ok] at h
            exact (Prod.mk.inj (Prod.mk.inj (Except.ok.inj h)).2).1.symm
  | raw cb =>
    simp only [config, configRaw] at h
    cases h1 : tsAt st r with
    | error e => rw [h1, bind_err] at h; cases h
    | ok t =>
      rw [h1, bind_ok] at h
      split at h
      · exact (Prod.mk.inj (Prod.mk.inj (Except.ok.inj h)).2).1.symm
      · cases h2 : cleanup t with
        | error e => rw [h2, bind_err] at h; cases h
        | ok p =>
          rw [h2, bind_ok] at h
          exact (Prod.mk.inj (Prod.mk.inj (Except.ok.inj h)).2).1.symm
  | hdlc cb =>
    simp only [config, configHdlc] at h
    cases h1 : tsAt st r with
    | error e => rw [h1, bind_err] at h; cases h
    | ok t =>
      rw [h1, bind_ok] at h
      split at h
      · exact (Prod.mk.inj (Prod.mk.inj (Except.ok.inj h)).2).1.symm
      · cases h2 : cleanup t with
        | error e => rw [h2, bind_err] at h; cases h
        | ok p =>
          rw [h2, bind_ok] at h
          exact (Prod.mk.inj (Prod.mk.inj (Except.ok.inj h)).2).1.symm
  | none =>
    simp only [config, configNone] at h
    cases h1 : tsAt st r with
    | error e => rw [h1, bind_err] at h; cases h
    | ok t =>
      rw [h1, bind_ok] at h
      split at h
      · exact (Prod.mk.inj (Prod.mk.inj (Except.ok.inj h)).2).1.symm
      · cases h2 : cleanup t with
        | error e => rw [h2, bind_err] at h; cases h
        | ok p =>
          rw [h2, bind_ok] at h
          exact (Prod.mk.inj (Prod.mk.inj (Except.ok.inj h)).2).1.symm

/-- the timeslot's own contents right after it was configured for a new type -/
def Fresh : U → Prop
  | .none => True
  | .sign ls _ => ls = []
  | .trau _ mux => mux = Mux.init
  | .raw _ q => q = []
  | .hdlc _ q => q = []
  | .i460 n => n = 0
  | .stale _ => False

/-- C45, partially: after every history, configuring an existing timeslot without signalling links (for
signalling: that was no TRAU or I.460 timeslot before) succeeds; the timeslot then has the new type, with
empty queues and no links if the type changed; messages that were queued in it are freed; links, lines and
other timeslots are as before. -/
theorem config_retype_partial {ops : List Op} (ha : AdmRun St.init ops) :
    ∃ st acts, run St.init ops = .ok (st, acts) ∧
      ∀ r c, Adm st (Cfg.op r (some r.1) c) → ¬ HasType st r c.type →
        ∃ st' a, config st r (some r.1) c = .ok (st', 0, a) ∧ HasType st' r c.type ∧ Fresh (st'.ts r).u ∧
          disposed a = rawq (st.ts r).u ∧ (∀ r', r' ≠ r → st'.ts r' = st.ts r') ∧
          st'.link = st.link ∧ st'.line = st.line := by
  obtain ⟨st, acts, hr, hr', hi⟩ := runs_of inv_init ha
  refine ⟨st, acts, hr, ?_⟩
  intro r c hadm hty
  have hfree : ∀ q : List Msg, disposed (q.map Act.free) = q := by
    intro q; induction q with
    | nil => rfl
    | cons m q ih =>
      have : disposed ((m :: q).map Act.free) = m :: disposed (q.map Act.free) := rfl
      rw [this, ih]
  have hcl : ∀ {t : Ts}, At st r → t = st.ts r → ∃ t' rc a, cleanup t = .ok (t', rc, a) ∧ t'.tmr = t.tmr ∧
      disposed a = rawq t.u := by
    intro t hat ht
    have hns := (hi.ts r hat).notStale
    unfold cleanup
    cases hu : t.u with
    | none => exact ⟨_, _, _, rfl, rfl, rfl⟩
    | sign ls d => exact ⟨_, _, _, rfl, rfl, rfl⟩
    | trau cb m => exact ⟨_, _, _, rfl, rfl, rfl⟩
    | raw cb q => exact ⟨_, _, _, rfl, rfl, hfree q⟩
    | hdlc cb q => exact ⟨_, _, _, rfl, rfl, hfree q⟩
    | i460 n => exact ⟨_, _, _, rfl, rfl, rfl⟩
    | stale u => exact absurd (ht ▸ hu) (hns u)
  have hsame : ∀ ty, ty ≠ (st.ts r).u.type → sameType (st.ts r) ty (some r.1) = false := by
    intro ty hne
    unfold sameType
    rw [decide_eq_false (fun e => hne e.symm)]
    rfl
  have hne : c.type ≠ (st.ts r).u.type := fun e => hty e.symm
  have other : ∀ (t : Ts) (r' : TsRef), r' ≠ r → (setTs st r t).ts r' = st.ts r' := by
    intro t r' h; simp [setTs, h]
  have hov : linksOf (st.ts r).u = [] → ∀ hat : At st r, (st.ts r).tmr ≠ .pending := by
    intro he hat hp
    exact (hi.ts r hat).pend hp he
  cases c with
  | trau cb =>
    obtain ⟨hat, _, h⟩ := hadm
    have he : linksOf (st.ts r).u = [] := by rcases h with h | h; exact absurd h hty; exact h
    obtain ⟨t', rc, a, h1, h2, h3⟩ := hcl hat rfl
    have ho : overlay t' = .ok () := by
      unfold overlay; rw [h2, if_neg (hov he hat)]
    refine ⟨setTs st r { t' with u := .trau cb Mux.init, line := some r.1, dmx := Demux.init t'.dmx, tmr := .junk }, a, ?_, ?_, ?_, h3, other _, rfl, rfl⟩
    · simp only [config, configTrau, tsAt_ok hat, bind_ok, hsame _ hne, h1, ho]
      rw [if_neg (by rw [hsame .trau hne]; exact Bool.false_ne_true)]
    · simp [HasType, setTs, U.type, Cfg.type]
    · simp [setTs, Fresh]
  | i460 j =>
    obtain ⟨hat, _, h⟩ := hadm
    have he : linksOf (st.ts r).u = [] := by rcases h with h | h; exact absurd h hty; exact h
    obtain ⟨t', rc, a, h1, h2, h3⟩ := hcl hat rfl
    have ho : overlay t' = .ok () := by
      unfold overlay; rw [h2, if_neg (hov he hat)]
    refine ⟨setTs st r { t' with u := .i460 0, line := some r.1, dmx := j, tmr := .junk }, a, ?_, ?_, ?_, h3, other _, rfl, rfl⟩
    · simp only [config, configI460, tsAt_ok hat, bind_ok, h1, ho]
      rw [if_neg (by rw [hsame .i460 hne]; exact Bool.false_ne_true)]
    · simp [HasType, setTs, U.type, Cfg.type]
    · simp [setTs, Fresh]
  | sign =>
    obtain ⟨hat, _, h⟩ := hadm
    obtain ⟨x, hx⟩ := hat.1
    obtain ⟨t', rc, a, h1, h2, h3⟩ := hcl hat rfl
    have ho : signDelay st (some r.1) = .ok x.driver.delay := by
      simp only [signDelay, lineAt_ok hx, bind_ok]
    refine ⟨setTs st r { t' with u := .sign [] x.driver.delay, line := some r.1 }, a, ?_, ?_, ?_, h3, other _, rfl, rfl⟩
    · simp only [config, configSign, tsAt_ok hat, bind_ok, h1, ho]
      rw [if_neg (by rw [hsame .sign hne]; exact Bool.false_ne_true)]
    · simp [HasType, setTs, U.type, Cfg.type]
    · simp [setTs, Fresh]
  | raw cb =>
    obtain ⟨hat, _, h⟩ := hadm
    obtain ⟨t', rc, a, h1, h2, h3⟩ := hcl hat rfl
    refine ⟨setTs st r { t' with u := .raw cb [], line := some r.1 }, a, ?_, ?_, ?_, h3, other _, rfl, rfl⟩
    · simp only [config, configRaw, tsAt_ok hat, bind_ok, h1]
      rw [if_neg (by rw [hsame .raw hne]; exact Bool.false_ne_true)]
    · simp [HasType, setTs, U.type, Cfg.type]
    · simp [setTs, Fresh]
  | hdlc cb =>
    obtain ⟨hat, _, h⟩ := hadm
    obtain ⟨t', rc, a, h1, h2, h3⟩ := hcl hat rfl
    refine ⟨setTs st r { t' with u := .hdlc cb [], line := some r.1 }, a, ?_, ?_, ?_, h3, other _, rfl, rfl⟩
    · simp only [config, configHdlc, tsAt_ok hat, bind_ok, h1]
      rw [if_neg (by rw [hsame .hdlc hne]; exact Bool.false_ne_true)]
    · simp [HasType, setTs, U.type, Cfg.type]
    · simp [setTs, Fresh]
  | none =>
    obtain ⟨hat, _, h⟩ := hadm
    obtain ⟨t', rc, a, h1, h2, h3⟩ := hcl hat rfl
    refine ⟨setTs st r { t' with u := .none, line := some r.1 }, a, ?_, ?_, ?_, h3, other _, rfl, rfl⟩
    · simp only [config, configNone, tsAt_ok hat, bind_ok, h1]
      rw [if_neg (by rw [hsame .none hne]; exact Bool.false_ne_true)]
    · simp [HasType, setTs, U.type, Cfg.type]
    · simp [setTs, Fresh]

/-- a raw timeslot with a queued message becomes a TRAU timeslot -/
example : after (setup ++ [.configRaw (0, 5) (some 0) 3, .sendRaw (0, 5) ⟨4, [9]⟩]) (fun st _ =>
    admB st (.configTrau (0, 5) (some 0) 1) && ((st.ts (0, 5)).u.type != .trau) && rawq (st.ts (0, 5)).u == [⟨4, [9]⟩]) = true := by
  decide +kernel

/-- `sign.tx_timer` is not initialised: a timeslot that was configured for TRAU, and then for signalling, has
a timer of garbage; the first message sent on it uses it.  (All operations are in the order of a normal
reconfiguration, every return value is 0.) -/
theorem sign_timer_violated :
    run St.init [.driverRegister drv, .lineCreate 1 drv.name, .configTrau (0, 0) (some 0) 1, .configSign (0, 0) (some 0),
      .linkCreate (0, 0) 1 0 1 0, .sendmsg (some 0) ⟨1, [1]⟩] = .error .uninit := by
  have h : (match run St.init [.driverRegister drv, .lineCreate 1 drv.name, .configTrau (0, 0) (some 0) 1, .configSign (0, 0) (some 0),
      .linkCreate (0, 0) 1 0 1 0, .sendmsg (some 0) ⟨1, [1]⟩] with | .error e => e == .uninit | _ => false) = true := by
    decide +kernel
  revert h
  generalize run St.init _ = r
  cases r with
  | ok p => intro h; cases h
  | error e => intro h; simp only [beq_iff_eq] at h; rw [h]

/-! ## Wake-up -/

/-- two links with a queued message each; the first is sent, then its link is destroyed before the delay timer
expires -/
def stuck : List Op :=
  setup ++ [.sendmsg (some 0) ⟨1, [1]⟩, .sendmsg (some 1) ⟨2, [2]⟩, .drvWrite (0, 0), .destroyBegin 0, .destroyEnd 0]

/-- destroying one link stops the delay timer that the whole timeslot waits for: the message of the other link
stays queued, with no write event requested and no timer running -/
theorem queued_wakes_violated : AdmRun St.init stuck ∧ ∃ st acts, run St.init stuck = .ok (st, acts) ∧
    (∃ x, st.link 1 = some x ∧ x.tx = [⟨2, [2]⟩] ∧ x.ts = (0, 0) ∧ x.onList = true) ∧
    (st.ts (0, 0)).armed = false ∧ (st.ts (0, 0)).tmr = .idle := by
  refine ⟨admRunB_ok (by decide +kernel), ?_⟩
  obtain ⟨st, acts, hr, h⟩ := after_ok (ops := stuck) (p := fun st _ =>
    (st.link 1).any (fun x => x.tx == [⟨2, [2]⟩] && (x.ts == (0, 0) && x.onList)) &&
    ((st.ts (0, 0)).armed == false && (st.ts (0, 0)).tmr == .idle)) (by decide +kernel)
  simp only [Bool.and_eq_true, beq_iff_eq] at h
  obtain ⟨h1, h2, h3⟩ := h
  obtain ⟨x, hx, hp⟩ := any_ok h1
  simp only [Bool.and_eq_true, beq_iff_eq] at hp
  exact ⟨st, acts, hr, ⟨x, hx, hp⟩, h2, h3⟩

/-- histories without destruction of links meet the hypothesis of `queued_wakes_partial` -/
theorem aloneRun_of {st : St} {ops : List Op} (h : ∀ k, Op.destroyBegin k ∉ ops) : AloneRun st ops := by
  induction ops generalizing st with
  | nil => trivial
  | cons op ops ih =>
    refine ⟨?_, fun st' acts _ => ih (fun k hk => h k (List.mem_cons_of_mem _ hk))⟩
    intro k e
    exact absurd (e ▸ List.mem_cons_self) (h k)

example : AloneRun St.init (life.take 19) ∧ AdmRun St.init (life.take 19) ∧
    after (life.take 19) (fun st _ => queueOf st 1 == [⟨15, [6]⟩]) = true := by
  refine ⟨aloneRun_of ?_, admRunB_ok (by decide +kernel), by decide +kernel⟩
  intro k
  simp [life, setup]

/-! ## Messages of a freed line -/

/-- a message queued in a raw timeslot is lost (neither freed nor passed on) when the line is freed -/
theorem line_free_leaks_violated : ∃ ops st acts m, AdmRun St.init ops ∧ run St.init ops = .ok (st, acts) ∧
    m ∈ entered St.init ops ∧ m ∉ disposed acts ∧ m ∉ queued st ∧ lineFrees acts = [0] := by
  obtain ⟨st, acts, hr, h⟩ := after_ok (ops := [.driverRegister drv, .lineCreate 1 drv.name, .configRaw (0, 3) (some 0) 1,
      .sendRaw (0, 3) ⟨7, [1]⟩, .linePut 0 0]) (p := fun st acts =>
    decide (⟨7, [1]⟩ ∈ entered St.init [.driverRegister drv, .lineCreate 1 drv.name, .configRaw (0, 3) (some 0) 1,
      .sendRaw (0, 3) ⟨7, [1]⟩, .linePut 0 0]) && (decide (⟨7, [1]⟩ ∉ disposed acts) && (decide (⟨7, [1]⟩ ∉ queued st) &&
      lineFrees acts == [0]))) (by decide +kernel)
  simp only [Bool.and_eq_true, decide_eq_true_eq, beq_iff_eq] at h
  exact ⟨_, st, acts, _, admRunB_ok (by decide +kernel), hr, h.1, h.2.1, h.2.2.1, h.2.2.2⟩

/-- in every history in which no line is freed, nothing is lost: each message handed to the library has been
passed on or freed exactly once, or is still queued -/
theorem messages_conserved_partial {ops : List Op} (ha : AdmRun St.init ops) :
    ∃ st acts, run St.init ops = .ok (st, acts) ∧
      (lineFrees acts = [] → (entered St.init ops).Perm (disposed acts ++ queued st)) := by
  obtain ⟨st, acts, hr, h⟩ := messages_accounted ha
  refine ⟨st, acts, hr, ?_⟩
  intro hn
  have key : ∀ (ops : List Op) (s s' : St) (acts : List Act), run s ops = .ok (s', acts) → lineFrees acts = [] →
      lostIn s ops = [] := by
    intro ops
    induction ops with
    | nil => intro s s' acts _ _; rfl
    | cons op ops ih =>
      intro s s' acts hr hn
      simp only [run] at hr
      cases hs : step s op with
      | error e => rw [hs, bind_err] at hr; cases hr
      | ok p =>
        rw [hs, bind_ok] at hr
        cases hq : run p.1 ops with
        | error e => rw [hq, bind_err] at hr; cases hr
        | ok q =>
          rw [hq, bind_ok] at hr
          have e := (Prod.mk.inj (Except.ok.inj hr)).2
          have hh : lineFrees p.2 ++ lineFrees q.2 = [] := by
            rw [← hn, ← e]; simp [lineFrees]
          rw [List.append_eq_nil_iff] at hh
          simp only [lostIn, hs, lost, hh.1, List.flatMap_nil, List.nil_append]
          exact ih p.1 q.1 q.2 (by rw [hq]) hh.2
  rw [key ops _ _ _ hr hn, List.append_nil] at h
  exact h

example : after (life.take 19) (fun st acts => lineFrees acts == [] && (disposed acts).length == 5 &&
    queued st == [⟨15, [6]⟩] && (entered St.init (life.take 19)).length == 6) = true := by decide +kernel

/-! ## Timeslot numbers -/

/-- C89 (exact): for every line and timeslot number `e1inp_get_mux(nr, ts_nr)` gives NULL if there is no line with that number, and otherwise
the place `ts_nr - 1` of its timeslots, which exists exactly if the number is in 1..32 -/
theorem ts_get_exact_partial {ops : List Op} (ha : AdmRun St.init ops) :
    ∃ st acts, run St.init ops = .ok (st, acts) ∧
      ∀ (nr tsNr : Byte),
        (tsGet st nr tsNr = .ok none ∧ ∀ l ∈ st.reg, ∀ x, st.line l = some x → x.num ≠ nr) ∨
        ∃ (l : Nat) (i : Int) (x : Line), tsGet st nr tsNr = .ok (some (l, i)) ∧ i = (tsNr.toNat : Int) - 1 ∧
          (0 ≤ i ∧ i < 32 ↔ 1 ≤ tsNr.toNat ∧ tsNr.toNat ≤ 32) ∧ l ∈ st.reg ∧ st.line l = some x ∧ x.num = nr := by
  obtain ⟨st, acts, hr, hr', hi⟩ := runs_of inv_init ha
  refine ⟨st, acts, hr, ?_⟩
  intro nr tsNr
  have key : ∀ ls : List Nat, (∀ l ∈ ls, Live st l) →
      (lineFindIn st nr ls = .ok none ∧ ∀ l ∈ ls, ∀ x, st.line l = some x → x.num ≠ nr) ∨
      ∃ l x, lineFindIn st nr ls = .ok (some l) ∧ l ∈ ls ∧ st.line l = some x ∧ x.num = nr := by
    intro ls
    induction ls with
    | nil => intro _; left; exact ⟨rfl, by simp⟩
    | cons l ls ih =>
      intro hl
      obtain ⟨x, hx⟩ := hl l List.mem_cons_self
      simp only [lineFindIn, lineAt_ok hx, bind_ok]
      by_cases hn : x.num = nr
      · right
        rw [if_pos hn]
        exact ⟨l, x, rfl, List.mem_cons_self, hx, hn⟩
      · rw [if_neg hn]
        rcases ih (fun j hj => hl j (List.mem_cons_of_mem _ hj)) with ⟨a, b⟩ | ⟨k, y, a, b, c, d⟩
        · left
          refine ⟨a, ?_⟩
          intro k hk y hy
          rcases List.mem_cons.1 hk with rfl | hk
          · rw [hx] at hy; cases hy; exact hn
          · exact b k hk y hy
        · right
          exact ⟨k, y, a, List.mem_cons_of_mem _ b, c, d⟩
  unfold tsGet lineFind
  rcases key st.reg hi.regLive with ⟨a, b⟩ | ⟨l, x, a, b, c, d⟩
  · left
    rw [a, bind_ok]
    exact ⟨rfl, b⟩
  · right
    rw [a, bind_ok]
    exact ⟨l, (tsNr.toNat : Int) - 1, x, rfl, rfl, by omega, b, c, d⟩

/-- `e1inp_get_mux(nr, ts_nr)` for the timeslot numbers 1..32 gives a timeslot of the line with that number,
namely the one with this number; NULL if there is no such line -/
theorem ts_get_partial {ops : List Op} (ha : AdmRun St.init ops) :
    ∃ st acts, run St.init ops = .ok (st, acts) ∧
      ∀ (nr tsNr : Byte), 1 ≤ tsNr.toNat → tsNr.toNat ≤ 32 →
        (tsGet st nr tsNr = .ok none ∧ ∀ l ∈ st.reg, ∀ x, st.line l = some x → x.num ≠ nr) ∨
        ∃ (l i : Nat) (x : Line), tsGet st nr tsNr = .ok (some (l, (i : Int))) ∧ i < 32 ∧ i + 1 = tsNr.toNat ∧ l ∈ st.reg ∧
          st.line l = some x ∧ x.num = nr := by
  obtain ⟨st, acts, hr, h⟩ := ts_get_exact_partial ha
  refine ⟨st, acts, hr, ?_⟩
  intro nr tsNr h1 h2
  rcases h nr tsNr with h | ⟨l, i, x, e1, e2, -, b, c, d⟩
  · exact .inl h
  · right
    refine ⟨l, tsNr.toNat - 1, x, ?_, by omega, by omega, b, c, d⟩
    have e : ((tsNr.toNat - 1 : Nat) : Int) = i := by omega
    rw [e]; exact e1

/-- the timeslot number is not checked: 0 gives the timeslot before the array, 33 and more those behind it -/
theorem ts_get_violated : ∃ ops st acts, AdmRun St.init ops ∧ run St.init ops = .ok (st, acts) ∧
    tsGet st 1 0 = .ok (some (0, -1)) ∧ tsGet st 1 33 = .ok (some (0, 32)) ∧ tsGet st 1 255 = .ok (some (0, 254)) := by
  obtain ⟨st, acts, hr, h⟩ := after_ok (ops := setup) (p := fun st _ =>
    decide (tsGet st 1 0 = .ok (some (0, -1))) && (decide (tsGet st 1 33 = .ok (some (0, 32))) &&
      decide (tsGet st 1 255 = .ok (some (0, 254))))) (by decide +kernel)
  simp only [Bool.and_eq_true, decide_eq_true_eq] at h
  exact ⟨setup, st, acts, admRunB_ok (by decide +kernel), hr, h⟩

/-! ## Clones -/

/-- cloning a line whose timeslots are not configured: a new line object with the number, driver, operations
and pcap descriptor of the original, held by the given use only; its timeslots belong to it; it is not found
by number, and everything that existed is as before -/
theorem clone_partial {ops : List Op} (ha : AdmRun St.init ops) :
    ∃ st acts, run St.init ops = .ok (st, acts) ∧
      ∀ l u x, st.line l = some x → (∀ i < 32, (st.ts (l, i)).u = .none) →
        ∃ st' c, lineClone st l u = .ok (st', c) ∧ ¬ Live st c ∧
          (∃ y, st'.line c = some y ∧ y.num = x.num ∧ y.driver = x.driver ∧ y.ops = x.ops ∧ y.pcapFd = x.pcapFd ∧
            ∀ v, cnt y.uses v = if v = u then 1 else 0) ∧
          (∀ i < 32, (st'.ts (c, i)).line = some c ∧ (st'.ts (c, i)).u = .none) ∧
          st'.reg = st.reg ∧ c ∉ st'.reg ∧ st'.link = st.link ∧
          (∀ j, j ≠ c → st'.line j = st.line j ∧ ∀ i, st'.ts (j, i) = st.ts (j, i)) := by
  obtain ⟨st, acts, hr, hr', hi⟩ := runs_of inv_init ha
  refine ⟨st, acts, hr, ?_⟩
  intro l u x hx hn
  have hfresh : ¬ Live st st.nextLine := by
    rintro ⟨y, hy⟩
    exact Nat.lt_irrefl _ (hi.lineLt _ _ hy)
  refine ⟨{ st with
    nextLine := st.nextLine + 1,
    line := fun l' => if l' = st.nextLine then some { x with uses := [(u, 1)] } else st.line l',
    ts := fun r => if r.1 = st.nextLine then cloneTs st.nextLine (st.ts (l, r.2)) else st.ts r }, st.nextLine, by simp only [lineClone, lineAt_ok hx, bind_ok], hfresh, ⟨{ x with uses := [(u, 1)] }, ?_, rfl, rfl, rfl, rfl, ?_⟩, ?_, rfl, ?_, rfl, ?_⟩
  · simp
  · intro v
    show cnt [(u, 1)] v = _
    unfold cnt
    by_cases h : v = u
    · subst h; simp
    · have : (u == v) = false := by simpa using fun e => h e.symm
      simp [List.filter, this, h]
  · intro i hi'
    simp [cloneTs, hn i hi']
  · intro hm; exact hfresh (hi.regLive _ hm)
  · intro j hj
    refine ⟨by simp [hj], fun i => by simp [hj]⟩

example : after (setup.take 3) (fun st _ => (st.line 0).isSome && (List.range 32).all fun i => isNoneB (st.ts (0, i)).u) = true := by
  decide +kernel

/-- a clone of a line with a configured timeslot has the list heads of the original: sending a raw message on the
timeslot of the clone, or receiving on it, or creating a link, goes through pointers into the original (in the
model: a fault), although the type of the timeslot is right -/
theorem clone_configured_violated : ∃ ops st acts, AdmRun St.init ops ∧ run St.init ops = .ok (st, acts) ∧
    ∃ st' c, lineClone st 0 9 = .ok (st', c) ∧ HasType st' (c, 5) .raw ∧ HasType st' (c, 0) .sign ∧
      (∀ m, sendRaw st' (c, 5) m = .error .badptr) ∧
      (∀ ty trx tei sapi, linkCreate st' (c, 0) ty trx tei sapi = .error .badptr) := by
  obtain ⟨st, acts, hr, h⟩ := after_ok (ops := setup ++ [.configRaw (0, 5) (some 0) 1]) (p := fun st _ =>
    (st.line 0).isSome && ((match (st.ts (0, 5)).u with | .raw _ _ => true | _ => false) &&
      (match (st.ts (0, 0)).u with | .sign _ _ => true | _ => false))) (by decide +kernel)
  simp only [Bool.and_eq_true] at h
  obtain ⟨h1, h2, h3⟩ := h
  obtain ⟨x, hx⟩ := Option.isSome_iff_exists.1 h1
  cases hu : (st.ts (0, 5)).u with
  | raw cb q =>
    cases hv : (st.ts (0, 0)).u with
    | sign ls d =>
      refine ⟨_, st, acts, admRunB_ok (by decide +kernel), hr, _, st.nextLine, by simp only [lineClone, lineAt_ok hx, bind_ok]; rfl, ?_, ?_, ?_, ?_⟩
      · simp [HasType, cloneTs, hu, U.type]
      · simp [HasType, cloneTs, hv, U.type]
      · intro m
        simp [sendRaw, tsAt, cloneTs, hu, bind_ok, U.type]
      · intro ty trx tei sapi
        simp [linkCreate, tsAt, cloneTs, hv, bind_ok, U.type]
    | _ => rw [hv] at h3; cases h3
  | _ => rw [hu] at h2; cases h2

/-! ## pcap descriptors -/

/-- `e1_set_pcap_fd2`: if the file header cannot be written, -1 is returned and nothing changes; else 0 is
returned, the line and all its LAPD instances use the new descriptor, the previous one is closed once, and
other lines are as before -/
theorem pcap_fd_set {st : St} {l : Nat} {x : Line} (hx : st.line l = some x) (fd : Int) :
    (0 ≤ fd → setPcapFd2 st l fd false = .ok (st, -1, [])) ∧
    ∃ st', setPcapFd2 st l fd true = .ok (st', 0, if x.pcapFd < 0 then [] else [.closeFd x.pcapFd]) ∧
      st'.line l = some { x with pcapFd := fd } ∧
      (∀ i, (st.ts (l, i)).lapd.isSome → (st'.ts (l, i)).lapd = some fd) ∧
      (∀ i, (st.ts (l, i)).lapd = none → (st'.ts (l, i)).lapd = none) ∧
      (∀ j, j ≠ l → st'.line j = st.line j ∧ ∀ i, st'.ts (j, i) = st.ts (j, i)) := by
  refine ⟨?_, ?_⟩
  · intro h
    unfold setPcapFd2
    rw [if_pos ⟨h, rfl⟩]
  · have e : closeOld x.pcapFd = if x.pcapFd < 0 then [] else [.closeFd x.pcapFd] := by
      unfold closeOld
      split <;> split <;> first | rfl | omega
    rw [← e]
    refine ⟨{ setLine st l (some { x with pcapFd := fd }) with
            ts := fun r => if r.1 = l then tsSetFd fd (st.ts r) else st.ts r }, ?_, ?_, ?_, ?_, ?_⟩
    · unfold setPcapFd2
      rw [if_neg (by simp), lineAt_ok hx, bind_ok]
    · simp [setLine]
    · intro i h
      obtain ⟨v, hv⟩ := Option.isSome_iff_exists.1 h
      simp [tsSetFd, hv]
    · intro i h
      simp [tsSetFd, h]
    · intro j hj
      simp [setLine, hj]

/-- the write actions of a history after `e1_set_pcap_fd2` on a line go to the new descriptor only: each message
sent on a link of a line is recorded once, in the file of the line, with the link's SAPI and TEI, iff the
timeslot has no LAPD instance of its own and a file is set -/
theorem sendmsg_traced {ops : List Op} (ha : AdmRun St.init ops) :
    ∃ st acts, run St.init ops = .ok (st, acts) ∧
      ∀ k x y m, st.link k = some x → x.onList = true → st.line x.ts.1 = some y →
        ∃ st' a, sendmsg st (some k) m = .ok (st', 0, a) ∧
          a.filter (fun e => match e with | .pcap .. => true | _ => false) =
            if (st.ts x.ts).lapd = none ∧ 0 ≤ y.pcapFd then [.pcap y.pcapFd true x.sapi x.tei m] else [] := by
  obtain ⟨st, acts, hr, hr', hi⟩ := runs_of inv_init ha
  refine ⟨st, acts, hr, ?_⟩
  intro k x y m hk hon hy
  obtain ⟨hat, hin⟩ := hi.link k x hk
  have hto := hi.ts x.ts hat
  have hlo : lineOf st (st.ts x.ts) = .ok y := by simp only [lineOf, hto.line, lineAt_ok hy]
  have hmem := hin hon
  have hfil : ∀ o, (tracePcap (st.ts x.ts) y o x.sapi x.tei m).filter (fun e => match e with | .pcap .. => true | _ => false) =
      if (st.ts x.ts).lapd = none ∧ 0 ≤ y.pcapFd then [.pcap y.pcapFd o x.sapi x.tei m] else [] := by
    intro o
    unfold tracePcap pcapActs
    cases hl : (st.ts x.ts).lapd with
    | some v => simp
    | none =>
      by_cases hf : y.pcapFd < 0
      · rw [if_neg (by simp), if_pos hf, if_neg (by omega)]; rfl
      · rw [if_neg (by simp), if_neg hf, if_pos ⟨rfl, by omega⟩]; rfl
  cases hu : (st.ts x.ts).u with
  | sign ls d =>
    have hnj : (st.ts x.ts).tmr ≠ .junk := hto.sign ⟨ls, d, hu⟩
    simp only [sendmsg, linkAt_ok hk, bind_ok, tsAt_ok hat, hlo, hu]
    cases ht : (st.ts x.ts).tmr with
    | junk => exact absurd ht hnj
    | idle =>
      refine ⟨wantWrite (setLink st k (some { x with tx := x.tx ++ [m] })) x.ts (st.ts x.ts), _, by simp only [timerIdle, ht, bind_ok, if_true]; rfl, ?_⟩
      rw [List.filter_cons]
      exact hfil true
    | pending =>
      refine ⟨setLink st k (some { x with tx := x.tx ++ [m] }), _, by simp only [timerIdle, ht, bind_ok]; rfl, ?_⟩
      exact hfil true
  | _ => rw [hu] at hmem; simp [linksOf] at hmem

/-- the clone of a line shares the pcap descriptor: after `e1_set_pcap_fd2` on the original the descriptor is
closed, but the clone (and each LAPD instance copied) still refers to it -/
theorem clone_pcap_violated : ∀ st l x, st.line l = some x → 0 ≤ x.pcapFd → st.line st.nextLine = none → ∀ u fd,
    ∃ st' c st'' , lineClone st l u = .ok (st', c) ∧ setPcapFd2 st' l fd true = .ok (st'', 0, [.closeFd x.pcapFd]) ∧
      ∃ y, st''.line c = some y ∧ y.pcapFd = x.pcapFd := by
  intro st l x hx hp hn u fd
  have hne : l ≠ st.nextLine := by
    intro e; rw [e, hn] at hx; cases hx
  obtain ⟨st', hst'⟩ : ∃ st', lineClone st l u = .ok (st', st.nextLine) ∧ st'.line l = some x ∧
      st'.line st.nextLine = some { x with uses := [(u, 1)] } := by
    refine ⟨_, by simp only [lineClone, lineAt_ok hx, bind_ok]; rfl, ?_, ?_⟩
    · simp [hne, hx]
    · simp
  obtain ⟨h1, h2, h3⟩ := hst'
  obtain ⟨_, st'', a, b, _, _, c⟩ := pcap_fd_set h2 fd
  rw [if_neg (by omega)] at a
  refine ⟨st', st.nextLine, st'', h1, a, { x with uses := [(u, 1)] }, ?_, rfl⟩
  rw [(c st.nextLine (fun e => hne e.symm)).1, h3]

/-- an existing line with a pcap file -/
example : after setup (fun st _ => (match setPcapFd2 st 0 7 true with
    | .ok (st, rc, a) => rc == 0 && a == [] && (st.line 0).any (fun x => x.pcapFd == 7) && (st.line st.nextLine).isNone
    | _ => false)) = true := by decide +kernel

theorem shutdown_ts (st st' : St) (ls : List Nat) (acts : List Act) (h : shutdownIn st ls = .ok (st', acts)) : st'.ts = st.ts := by
  induction ls generalizing st st' acts with
  | nil =>
    simp only [shutdownIn] at h
    have := (Prod.mk.inj (Except.ok.inj h)).1
    rw [← this]
  | cons l ls ih =>
    simp only [shutdownIn] at h
    cases hx : lineAt st l with
    | error e => rw [hx, bind_err] at h; cases h
    | ok x =>
      rw [hx, bind_ok] at h
      cases hq : shutdownIn (setLine st l (some { x with pcapFd := -1 })) ls with
      | error e => rw [hq, bind_err] at h; cases h
      | ok q =>
        rw [hq, bind_ok] at h
        have := (Prod.mk.inj (Except.ok.inj h)).1
        rw [← this, ih _ _ _ hq]
        rfl

/-- `e1i_sig_cb` for the global shutdown: the descriptor of every line in the list is closed once and set
to -1; timeslots (and their LAPD instances) are not touched -/
theorem shutdown_closes {st : St} (hn : st.reg.Nodup) (hl : ∀ l ∈ st.reg, Live st l) :
    ∃ st', shutdown st = .ok (st', st.reg.flatMap fun l => match st.line l with
        | some x => if x.pcapFd < 0 then [] else [.closeFd x.pcapFd]
        | none => []) ∧
      st'.ts = st.ts ∧ st'.link = st.link ∧ st'.reg = st.reg ∧
      (∀ l x, l ∈ st.reg → st.line l = some x → st'.line l = some { x with pcapFd := -1 }) ∧
      (∀ l, l ∉ st.reg → st'.line l = st.line l) := by
  have key : ∀ (ls : List Nat) (st : St), ls.Nodup → (∀ l ∈ ls, Live st l) →
      ∃ st', shutdownIn st ls = .ok (st', ls.flatMap fun l => match st.line l with
          | some x => if x.pcapFd < 0 then [] else [.closeFd x.pcapFd]
          | none => []) ∧
        st'.ts = st.ts ∧ st'.link = st.link ∧ st'.reg = st.reg ∧
        (∀ l x, l ∈ ls → st.line l = some x → st'.line l = some { x with pcapFd := -1 }) ∧
        (∀ l, l ∉ ls → st'.line l = st.line l) := by
    intro ls
    induction ls with
    | nil => intro st _ _; exact ⟨st, rfl, rfl, rfl, rfl, by simp, fun _ _ => rfl⟩
    | cons k ls ih =>
      intro st hn hl
      obtain ⟨x, hx⟩ := hl k List.mem_cons_self
      have hnk := (List.nodup_cons.1 hn).1
      have hne : ∀ l ∈ ls, l ≠ k := fun l hm e => hnk (e ▸ hm)
      obtain ⟨st', h1, h2, h3, h4, h5, h6⟩ := ih (setLine st k (some { x with pcapFd := -1 })) (List.nodup_cons.1 hn).2 (by
        intro l hm
        obtain ⟨y, hy⟩ := hl l (List.mem_cons_of_mem _ hm)
        exact ⟨y, by simp [setLine, hne l hm, hy]⟩)
      refine ⟨st', ?_, h2, h3, h4, ?_, ?_⟩
      · simp only [shutdownIn, lineAt_ok hx, bind_ok, h1, List.flatMap_cons, hx]
        have e1 : closeOld x.pcapFd = if x.pcapFd < 0 then [] else [.closeFd x.pcapFd] := by
          unfold closeOld
          split <;> split <;> first | rfl | omega
        have e2 : (ls.flatMap fun l => match (setLine st k (some { x with pcapFd := -1 })).line l with
            | some x => if x.pcapFd < 0 then [] else [Act.closeFd x.pcapFd]
            | none => []) = ls.flatMap fun l => match st.line l with
            | some x => if x.pcapFd < 0 then [] else [Act.closeFd x.pcapFd]
            | none => [] := by
          rw [List.flatMap_def, List.flatMap_def]
          congr 1
          apply List.map_congr_left
          intro l hm
          simp [setLine, hne l hm]
        rw [e1, e2]
      · intro l y hm hy
        rcases List.mem_cons.1 hm with rfl | hm
        · rw [hx] at hy; cases hy
          rw [h6 _ hnk]; simp [setLine]
        · exact h5 l y hm (by simp [setLine, hne l hm, hy])
      · intro l hm
        have h7 : l ≠ k := fun e => hm (e ▸ List.mem_cons_self)
        rw [h6 l (fun h => hm (List.mem_cons_of_mem _ h))]
        simp [setLine, h7]
  exact key st.reg st hn hl

/-- at global shutdown the descriptors of all lines are closed, but the LAPD instances keep the closed
descriptor (and so write to whatever is opened next) -/
theorem shutdown_lapd_violated : ∃ st l i fd st' acts, (∃ x, st.line l = some x ∧ x.pcapFd = fd ∧ x.ops = none) ∧
    (st.ts (l, i)).lapd = some fd ∧ shutdown st = .ok (st', acts) ∧ Act.closeFd fd ∈ acts ∧ (st'.ts (l, i)).lapd = some fd := by
  refine ⟨{ St.init with line := fun _ => some { num := 0, driver := drv, ops := none, uses := [(0, 1)], pcapFd := 7 }, ts := fun _ => { freshTs 0 with lapd := some 7 }, reg := [0], nextLine := 1 }, 0, 0, 7, _, [.closeFd 7], ⟨_, rfl, rfl, rfl⟩, rfl, rfl, by simp, rfl⟩

/-! ## Transmission on TRAU timeslots -/

/-- after every history, `e1inp_tx_ts` on a TRAU timeslot gives a message of 40 octets, whatever is queued -/
theorem tx_trau_len {ops : List Op} (ha : AdmRun St.init ops) :
    ∃ st acts, run St.init ops = .ok (st, acts) ∧
      ∀ r i b, At st r → HasType st r .trau →
        ∃ st' bs, txTs st r i b = .ok (st', some (none, ⟨i, bs⟩)) ∧ bs.length = 40 := by
  obtain ⟨st, acts, hr, hr', hi⟩ := runs_of inv_init ha
  refine ⟨st, acts, hr, ?_⟩
  intro r i b hat hty
  have hto := hi.ts r hat
  obtain ⟨cb, mux, hu⟩ := trau_of_type hty hto.notStale
  obtain ⟨bs, mux', h1, h2, _⟩ := muxOut_ok (hto.mux cb mux hu) 40
  refine ⟨setTs st r { st.ts r with u := .trau cb mux' }, bs, ?_, h2⟩
  simp only [txTs, tsAt_ok hat, bind_ok, hu, h1]

end Verif.E1
