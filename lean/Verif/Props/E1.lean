import Verif.Props.E1Hist
/-!
# Properties C42, C44, C45 and more of the E1 input core; examples and defects
-/
set_option maxRecDepth 10000
namespace Verif.E1

/-! ### deciding admissibility of concrete histories (for the examples) -/

def liveB (st : St) (l : Nat) : Bool := (st.line l).isSome
def atB (st : St) (r : TsRef) : Bool := liveB st r.1 && decide (r.2 < 32)
def isNoneB : U → Bool
  | .none => true
  | _ => false
def boundB (st : St) (r : TsRef) : Bool := (st.line r.1).any fun x => x.ops.isSome

def admB (st : St) : Op → Bool
  | .driverRegister _ => true
  | .lineCreate _ _ => true
  | .lineFind _ => true
  | .lineClone l u => liveB st l && (u != uLink && (List.range 32).all fun i => isNoneB (st.ts (l, i)).u)
  | .lineGet l u => liveB st l && (u != uLink)
  | .linePut l u => (u != uLink) && (st.line l).any fun x => decide (0 < cnt x.uses u)
  | .bindOps l _ => liveB st l
  | .configTrau r l _ => atB st r && (l == some r.1 && ((st.ts r).u.type == .trau || (linksOf (st.ts r).u).isEmpty))
  | .configI460 r l _ => atB st r && (l == some r.1 && ((st.ts r).u.type == .i460 || (linksOf (st.ts r).u).isEmpty))
  | .configSign r l => atB st r && (l == some r.1 && ((st.ts r).u.type == .sign || (st.ts r).tmr != .junk))
  | .configRaw r l _ => atB st r && (l == some r.1 && ((st.ts r).u.type == .raw || (linksOf (st.ts r).u).isEmpty))
  | .configHdlc r l _ => atB st r && (l == some r.1 && ((st.ts r).u.type == .hdlc || (linksOf (st.ts r).u).isEmpty))
  | .configNone r l => atB st r && (l == some r.1 && ((st.ts r).u.type == .none || (linksOf (st.ts r).u).isEmpty))
  | .linkCreate r _ _ _ _ => atB st r
  | .destroyBegin k => (st.link k).isSome
  | .destroyEnd k => (st.link k).any fun x => !x.onList
  | .sendmsg none _ => true
  | .sendmsg (some k) _ => (st.link k).any fun x => x.onList
  | .sendRaw r _ => atB st r && ((st.ts r).u.type == .raw)
  | .sendHdlc r _ => atB st r && ((st.ts r).u.type == .hdlc)
  | .txTs r _ _ => atB st r
  | .drvWrite r => atB st r
  | .timerFire r => atB st r
  | .muxEnqueue r c f => atB st r && ((st.ts r).u.type == .trau && decide (c < 4 ∧ f.length % 2 = 0))
  | .subchActivate r c => atB st r && ((st.ts r).u.type == .trau && decide (0 ≤ c))
  | .subchDeactivate r c => atB st r && ((st.ts r).u.type == .trau && decide (0 ≤ c))
  | .rxTs r _ _ _ => atB st r && ((st.ts r).u.type != .sign || boundB st r)
  | .dlsapUp r _ _ _ _ _ => atB st r && ((st.ts r).u.type == .sign && boundB st r)
  | .event r _ _ _ => atB st r && ((st.ts r).u.type == .sign)

theorem liveB_ok {st : St} {l : Nat} (h : liveB st l = true) : Live st l := by
  unfold liveB at h
  exact Option.isSome_iff_exists.1 h

theorem atB_ok {st : St} {r : TsRef} (h : atB st r = true) : At st r := by
  simp only [atB, Bool.and_eq_true, decide_eq_true_eq] at h
  exact ⟨liveB_ok h.1, h.2⟩

theorem boundB_ok {st : St} {r : TsRef} (h : boundB st r = true) : Bound st r := by
  unfold boundB at h
  cases hx : st.line r.1 with
  | none => rw [hx] at h; cases h
  | some x => rw [hx] at h; exact ⟨x, hx, h⟩

theorem any_ok {α : Type} {o : Option α} {p : α → Bool} (h : o.any p = true) : ∃ x, o = some x ∧ p x = true := by
  cases o with
  | none => cases h
  | some x => exact ⟨x, rfl, h⟩

theorem admB_ok {st : St} {op : Op} (h : admB st op = true) : Adm st op := by
  cases op with
  | driverRegister => trivial
  | lineCreate => trivial
  | lineFind => trivial
  | lineClone l u =>
    simp only [admB, Bool.and_eq_true, bne_iff_ne, ne_eq, List.all_eq_true, List.mem_range] at h
    refine ⟨liveB_ok h.1, h.2.1, ?_⟩
    intro i hi
    have := h.2.2 i hi
    cases hu : (st.ts (l, i)).u <;> rw [hu] at this <;> first | rfl | cases this
  | lineGet l u => simp only [admB, Bool.and_eq_true, bne_iff_ne, ne_eq] at h; exact ⟨liveB_ok h.1, h.2⟩
  | linePut l u =>
    simp only [admB, Bool.and_eq_true, bne_iff_ne, ne_eq] at h
    obtain ⟨x, hx, hp⟩ := any_ok h.2
    exact ⟨h.1, x, hx, by simpa using hp⟩
  | bindOps => exact liveB_ok h
  | configTrau | configI460 | configRaw | configHdlc | configNone =>
    simp only [admB, Bool.and_eq_true, beq_iff_eq, Bool.or_eq_true, List.isEmpty_iff] at h
    exact ⟨atB_ok h.1, h.2.1, h.2.2⟩
  | configSign =>
    simp only [admB, Bool.and_eq_true, beq_iff_eq, Bool.or_eq_true, bne_iff_ne] at h
    exact ⟨atB_ok h.1, h.2.1, h.2.2⟩
  | linkCreate => exact atB_ok h
  | destroyBegin k => exact Option.isSome_iff_exists.1 h
  | destroyEnd k =>
    obtain ⟨x, hx, hp⟩ := any_ok h
    exact ⟨x, hx, by simpa using hp⟩
  | sendmsg dst m =>
    cases dst with
    | none => trivial
    | some k => exact any_ok h
  | sendRaw | sendHdlc => simp only [admB, Bool.and_eq_true, beq_iff_eq] at h; exact ⟨atB_ok h.1, h.2⟩
  | txTs => exact atB_ok h
  | drvWrite => exact atB_ok h
  | timerFire => exact atB_ok h
  | muxEnqueue | subchActivate | subchDeactivate =>
    simp only [admB, Bool.and_eq_true, beq_iff_eq, decide_eq_true_eq] at h; exact ⟨atB_ok h.1, h.2.1, h.2.2⟩
  | rxTs =>
    simp only [admB, Bool.and_eq_true, Bool.or_eq_true, bne_iff_ne] at h
    refine ⟨atB_ok h.1, ?_⟩
    intro hty
    rcases h.2 with h2 | h2
    · exact absurd hty h2
    · exact boundB_ok h2
  | dlsapUp =>
    simp only [admB, Bool.and_eq_true, beq_iff_eq] at h; exact ⟨atB_ok h.1, h.2.1, boundB_ok h.2.2⟩
  | event => simp only [admB, Bool.and_eq_true, beq_iff_eq] at h; exact ⟨atB_ok h.1, h.2⟩

def admRunB (st : St) : List Op → Bool
  | [] => true
  | op :: ops => admB st op && match step st op with | .ok (st', _) => admRunB st' ops | .error _ => false

theorem admRunB_ok {st : St} {ops : List Op} (h : admRunB st ops = true) : AdmRun st ops := by
  induction ops generalizing st with
  | nil => trivial
  | cons op ops ih =>
    simp only [admRunB, Bool.and_eq_true] at h
    refine ⟨admB_ok h.1, ?_⟩
    intro st' acts hs
    rw [hs] at h
    exact ih h.2

/-- a fact about the state and the actions after a concrete history -/
def after (ops : List Op) (p : St → List Act → Bool) : Bool :=
  match run St.init ops with
  | .ok (st, acts) => p st acts
  | .error _ => false

theorem after_ok {ops : List Op} {p : St → List Act → Bool} (h : after ops p = true) :
    ∃ st acts, run St.init ops = .ok (st, acts) ∧ p st acts = true := by
  unfold after at h
  cases hr : run St.init ops with
  | error e => rw [hr] at h; cases h
  | ok q => rw [hr] at h; exact ⟨q.1, q.2, rfl, h⟩

/-! ### a concrete history -/

/-- "dahdi" -/
def drv : Driver := { name := [0x64, 0x61, 0x68, 0x64, 0x69], delay := 1000, hasClose := true, createOk := true }

/-- line 1 with operations, its first timeslot for signalling, two links (TEI 1 SAPI 0, TEI 1 SAPI 62) -/
def setup : List Op :=
  [.driverRegister drv, .lineCreate 1 [0x44, 0x41, 0x48, 0x44, 0x49], .bindOps 0 (some true), .configSign (0, 0) (some 0),
   .linkCreate (0, 0) 1 0 1 0, .linkCreate (0, 0) 2 0 1 62]

/-- sending on both links, receiving, destroying everything -/
def life : List Op :=
  setup ++ [.sendmsg (some 0) ⟨10, [1]⟩, .sendmsg (some 1) ⟨11, [2]⟩, .sendmsg (some 0) ⟨12, [3]⟩, .drvWrite (0, 0),
    .timerFire (0, 0), .drvWrite (0, 0), .timerFire (0, 0), .drvWrite (0, 0), .rxTs (0, 0) ⟨13, [4]⟩ 1 62,
    .rxTs (0, 0) ⟨14, [5]⟩ 2 62, .lineGet 0 7, .linePut 0 0, .sendmsg (some 1) ⟨15, [6]⟩, .destroyBegin 1, .destroyEnd 1,
    .destroyBegin 0, .destroyBegin 0, .destroyEnd 0, .linePut 0 7]

theorem life_adm : AdmRun St.init life := admRunB_ok (by decide +kernel)

/-- the messages of link 0 and 1 went out in order, the line was freed by the last put -/
example : after life (fun st acts => txOf 0 acts == [⟨10, [1]⟩, ⟨12, [3]⟩] && txOf 1 acts == [⟨11, [2]⟩] &&
    lineFrees acts == [0] && linkFrees acts == [1, 0] && (st.line 0).isNone && decide (held St.init 0 7 life = 0) &&
    disposed acts == [⟨10, [1]⟩, ⟨12, [3]⟩, ⟨11, [2]⟩, ⟨13, [4]⟩, ⟨14, [5]⟩, ⟨15, [6]⟩]) = true := by decide +kernel

/-- before the last put somebody else holds the line -/
example : after (life.take 24) (fun st acts => (st.line 0).isSome && decide (held St.init 0 7 (life.take 24) = 1) &&
    decide (held St.init 0 uCtor (life.take 24) = 0) && lineFrees acts == []) = true := by decide +kernel

/-! ## C42: routing of received signalling messages -/

/-- C42: after every history, a message received on a signalling timeslot (with operations bound to the
line) is passed up, and not freed, with the first link in the table whose TEI and SAPI match; without
such a link it is freed and the return value is -EINVAL; without a `sign_link` operation it is freed and
the return value is -ENOENT.  Nothing else happens to messages and the state does not change. -/
theorem rx_routing {ops : List Op} (ha : AdmRun St.init ops) :
    ∃ st acts, run St.init ops = .ok (st, acts) ∧
      ∀ r m tei sapi x cb, At st r → HasType st r .sign → st.line r.1 = some x → x.ops = some cb →
        ∃ rc a, rxTs st r m tei sapi = .ok (st, rc, a) ∧
        ((∃ before k after y, linksOf (st.ts r).u = before ++ k :: after ∧ st.link k = some y ∧
            y.tei = tei ∧ y.sapi = sapi ∧ y.ts = r ∧
            (∀ j ∈ before, ∀ z, st.link j = some z → ¬ (z.tei = tei ∧ z.sapi = sapi)) ∧
            (cb = true → rc = 0 ∧ a.filter (fun e => (disposes e).isSome) = [.signCb k m]) ∧
            (cb = false → rc = -ENOENT ∧ a.filter (fun e => (disposes e).isSome) = [.free m])) ∨
         ((∀ k ∈ linksOf (st.ts r).u, ∀ y, st.link k = some y → ¬ (y.tei = tei ∧ y.sapi = sapi)) ∧
            rc = -EINVAL ∧ a.filter (fun e => (disposes e).isSome) = [.free m])) := by
  obtain ⟨st, acts, hr, hr', hi⟩ := runs_of inv_init ha
  refine ⟨st, acts, hr, ?_⟩
  intro r m tei sapi x cb hat hty hx hops
  have hto := hi.ts r hat
  obtain ⟨ls, d, hu⟩ := sign_of_type hty hto.notStale
  have hls : ∀ k ∈ ls, ∃ x, st.link k = some x ∧ x.ts = r ∧ x.onList = true := by
    intro k hk
    exact hi.ls r hat k (by rw [hu]; exact hk)
  have hlo : lineOf st (st.ts r) = .ok x := by simp only [lineOf, hto.line, lineAt_ok hx]
  have hpc : (tracePcap (st.ts r) x false sapi tei m).filter (fun e => (disposes e).isSome) = [] := by
    unfold tracePcap pcapActs
    split
    · rfl
    · split <;> rfl
  rw [hu]
  simp only [rxTs, tsAt_ok hat, bind_ok, hu, hlo, linksOf]
  rcases lookupIn_spec st tei sapi ls (fun k hk => by obtain ⟨y, y1, _⟩ := hls k hk; exact ⟨y, y1⟩) with
    ⟨h1, h2⟩ | ⟨a, k, c, y, e, hk, h3, h4, h5, h1⟩
  · rw [h1, bind_ok]
    refine ⟨_, _, rfl, .inr ⟨h2, rfl, ?_⟩⟩
    rw [List.filter_append, hpc]; rfl
  · obtain ⟨z, hz, hzr, _⟩ := hls k (by rw [e]; simp)
    rw [hk] at hz; cases hz
    rw [h1, bind_ok]
    simp only [rxDeliver, hops]
    cases cb with
    | true =>
      refine ⟨_, _, rfl, .inl ⟨a, k, c, y, e, hk, h3, h4, hzr, h5, ?_, by simp⟩⟩
      intro _
      refine ⟨rfl, ?_⟩
      rw [List.filter_append, hpc]; rfl
    | false =>
      refine ⟨_, _, rfl, .inl ⟨a, k, c, y, e, hk, h3, h4, hzr, h5, by simp, ?_⟩⟩
      intro _
      refine ⟨rfl, ?_⟩
      rw [List.filter_append, hpc]; rfl

/-- after `setup`, SAPI 62 goes to link 1 and TEI 2 nowhere -/
example : after setup (fun st _ =>
    (match rxTs st (0, 0) ⟨5, [1, 2]⟩ 1 62 with | .ok (_, rc, a) => rc == 0 && a == [.signCb 1 ⟨5, [1, 2]⟩] | _ => false) &&
    (match rxTs st (0, 0) ⟨5, [1, 2]⟩ 2 62 with | .ok (_, rc, a) => rc == -22 && a == [.free ⟨5, [1, 2]⟩] | _ => false))
    = true := by decide +kernel

/-! ## Link events -/

/-- after every history, `e1inp_event` on a signalling timeslot returns -EINVAL and dispatches nothing if no
link matches; else it returns 0 and dispatches one signal with the line, the timeslot number and the type,
TRX, TEI and SAPI of the first matching link -/
theorem event_signal {ops : List Op} (ha : AdmRun St.init ops) :
    ∃ st acts, run St.init ops = .ok (st, acts) ∧
      ∀ r evt tei sapi, At st r → HasType st r .sign →
        (event st r evt tei sapi = .ok (-EINVAL, []) ∧
          ∀ k ∈ linksOf (st.ts r).u, ∀ y, st.link k = some y → ¬ (y.tei = tei ∧ y.sapi = sapi)) ∨
        ∃ before k after y, linksOf (st.ts r).u = before ++ k :: after ∧ st.link k = some y ∧
          (∀ j ∈ before, ∀ z, st.link j = some z → ¬ (z.tei = tei ∧ z.sapi = sapi)) ∧
          event st r evt tei sapi = .ok (0, [.signal evt r.1 (r.2 + 1) y.type y.trx tei sapi]) := by
  obtain ⟨st, acts, hr, hr', hi⟩ := runs_of inv_init ha
  refine ⟨st, acts, hr, ?_⟩
  intro r evt tei sapi hat hty
  have hto := hi.ts r hat
  obtain ⟨ls, d, hu⟩ := sign_of_type hty hto.notStale
  have hls : ∀ k ∈ ls, ∃ x, st.link k = some x := by
    intro k hk
    obtain ⟨y, y1, _⟩ := hi.ls r hat k (by rw [hu]; exact hk)
    exact ⟨y, y1⟩
  rw [hu]
  simp only [event, tsAt_ok hat, bind_ok, lookup, hu, linksOf]
  rcases lookupIn_spec st tei sapi ls hls with ⟨h1, h2⟩ | ⟨a, k, c, y, e, hk, h3, h4, h5, h1⟩
  · left; rw [h1, bind_ok]; exact ⟨rfl, h2⟩
  · right
    refine ⟨a, k, c, y, e, hk, h5, ?_⟩
    rw [h1, bind_ok]
    simp only [linkAt_ok hk, bind_ok, hto.line, h3, h4]

/-- `e1inp_dlsap_up`: an established data link is announced with S_L_INP_TEI_UP, a released one with
S_L_INP_TEI_DN, and the message is freed; data indications are received like messages of a driver; all other
primitives only free the message -/
theorem dlsap_up_map (st : St) (r : TsRef) (ind : Bool) (m : Msg) (tei sapi : Byte) :
    (∀ rc a, event st r S_L_INP_TEI_UP tei sapi = .ok (rc, a) → dlsapUp st r .est ind m tei sapi = .ok (st, a ++ [.free m])) ∧
    (∀ rc a, event st r S_L_INP_TEI_DN tei sapi = .ok (rc, a) → dlsapUp st r .rel ind m tei sapi = .ok (st, a ++ [.free m])) ∧
    (∀ p, p = .data ∨ p = .unitData → ∀ st' rc a, rxTs st r m tei sapi = .ok (st', rc, a) →
      dlsapUp st r p true m tei sapi = .ok (st', a)) ∧
    (∀ p, p = .data ∨ p = .unitData → dlsapUp st r p false m tei sapi = .ok (st, [.free m])) ∧
    (∀ p, p = .mdlError ∨ p = .other → dlsapUp st r p ind m tei sapi = .ok (st, [.free m])) := by
  refine ⟨?_, ?_, ?_, ?_, ?_⟩
  · intro rc a h; simp only [dlsapUp, h, bind_ok]
  · intro rc a h; simp only [dlsapUp, h, bind_ok]
  · rintro p (rfl | rfl) st' rc a h <;> simp only [dlsapUp, h, bind_ok, if_true]
  · rintro p (rfl | rfl) <;> rfl
  · rintro p (rfl | rfl) <;> rfl

example : after setup (fun st _ =>
    (match dlsapUp st (0, 0) .est true ⟨9, []⟩ 1 62 with
      | .ok (_, a) => a == [.signal 1 0 1 2 0 1 62, .free ⟨9, []⟩] | _ => false)) = true := by decide +kernel

/-- the type of the timeslot is not checked: an event for a timeslot that is not a signalling timeslot walks
over other members of the union as if they were the list of links -/
theorem event_type_violated : ∃ ops st acts, AdmRun St.init ops ∧ run St.init ops = .ok (st, acts) ∧
    At st (0, 1) ∧ event st (0, 1) S_L_INP_TEI_UP 1 0 = .error .badptr := by
  obtain ⟨st, acts, h1, h2⟩ := after_ok (ops := setup ++ [.configRaw (0, 1) (some 0) 5])
    (p := fun st _ => atB st (0, 1) && decide (event st (0, 1) S_L_INP_TEI_UP 1 0 = .error .badptr)) (by decide +kernel)
  simp only [Bool.and_eq_true, decide_eq_true_eq] at h2
  exact ⟨_, st, acts, admRunB_ok (by decide +kernel), h1, atB_ok h2.1, h2.2⟩

/-! ## C44: fairness between links -/

/-- one round: another message on link 0, the driver is ready to write, its delay expires -/
def round (i : Nat) : List Op := [.sendmsg (some 0) ⟨i, [1]⟩, .drvWrite (0, 0), .timerFire (0, 0)]

def rounds : Nat → List Op
  | 0 => []
  | n + 1 => rounds n ++ round n

/-- link 1 has the message `b` queued, link 0 nothing, the driver is ready -/
structure Starving (b : Msg) (st : St) : Prop where
  line : ∃ x, st.line 0 = some x ∧ x.pcapFd = -1
  ts : ∃ (d : Int) (t : Ts), st.ts (0, 0) = { t with u := .sign [0, 1] d, line := some 0, tmr := .idle, armed := true }
  a : ∃ x : Link, st.link 0 = some { x with ts := (0, 0), tx := [], onList := true }
  b : ∃ x : Link, st.link 1 = some { x with ts := (0, 0), tx := [b], onList := true }

def idleLinkB (ms : List Msg) (x : Link) : Bool := decide (x.ts = (0, 0)) && x.tx == ms && x.onList

def starvingB (st : St) (acts : List Act) : Bool :=
  (st.line 0).any (fun x => x.pcapFd == -1) &&
  ((match (st.ts (0, 0)).u with | .sign ls _ => ls == [0, 1] | _ => false) && (st.ts (0, 0)).line == some 0 &&
    (st.ts (0, 0)).tmr == .idle && (st.ts (0, 0)).armed) &&
  (st.link 0).any (idleLinkB []) && (st.link 1).any (idleLinkB [⟨11, [2]⟩]) &&
  (txOf 0 acts).isEmpty && (txOf 1 acts).isEmpty

theorem run_append (st : St) (a b : List Op) :
    run st (a ++ b) = (run st a >>= fun p => run p.1 b >>= fun q => .ok (q.1, p.2 ++ q.2)) := by
  induction a generalizing st with
  | nil =>
    simp only [List.nil_append, run, bind_ok, List.nil_append]
    cases run st b <;> rfl
  | cons op a ih =>
    simp only [List.cons_append, run]
    cases hs : step st op with
    | error e => rfl
    | ok p =>
      simp only [bind_ok, ih]
      cases ha : run p.1 a with
      | error e => rfl
      | ok q =>
        simp only [bind_ok]
        cases hb : run q.1 b with
        | error e => rfl
        | ok z => simp only [bind_ok, List.append_assoc]

theorem admRun_append {st : St} {a b : List Op} (h : AdmRun st a)
    (h2 : ∀ st' acts, run st a = .ok (st', acts) → AdmRun st' b) : AdmRun st (a ++ b) := by
  induction a generalizing st with
  | nil => exact h2 st [] rfl
  | cons op a ih =>
    refine ⟨h.1, ?_⟩
    intro st' acts hs
    refine ih (h.2 st' acts hs) ?_
    intro st'' acts' hr
    exact h2 st'' (acts ++ acts') (by simp only [run, hs, bind_ok, hr])

theorem tracePcap_off (t : Ts) (x : Line) (hx : x.pcapFd = -1) (o : Bool) (s e : Byte) (m : Msg) :
    tracePcap t x o s e m = [] := by
  unfold tracePcap pcapActs
  rw [hx]; split <;> rfl

theorem starving_round {b : Msg} {st : St} (h : Starving b st) (i : Nat) :
    AdmRun st (round i) ∧ ∃ st' acts, run st (round i) = .ok (st', acts) ∧ Starving b st' ∧
      txOf 0 acts = [⟨i, [1]⟩] ∧ txOf 1 acts = [] := by
  obtain ⟨⟨l, hl, hp⟩, ⟨d, t, ht⟩, ⟨a, ha⟩, ⟨c, hc⟩⟩ := h
  have hat : At st (0, 0) := ⟨⟨l, hl⟩, by decide⟩
  -- the message is queued
  have s1 : step st (.sendmsg (some 0) ⟨i, [1]⟩) = .ok
      (setTs (setLink st 0 (some { a with ts := (0, 0), tx := [⟨i, [1]⟩], onList := true })) (0, 0)
        { t with u := .sign [0, 1] d, line := some 0, tmr := .idle, armed := true }, [.wantWrite (0, 0)]) := by
    simp only [step, sendmsg, linkAt_ok ha, bind_ok, tsAt_ok hat, ht, lineOf, lineAt_ok hl, timerIdle, if_true,
      tracePcap_off _ l hp]
    rfl
  generalize hst1 : setTs (setLink st 0 (some { a with ts := (0, 0), tx := [⟨i, [1]⟩], onList := true })) (0, 0)
        { t with u := .sign [0, 1] d, line := some 0, tmr := .idle, armed := true } = st1 at s1
  have l1 : st1.line 0 = some l := by rw [← hst1]; exact hl
  have t1 : st1.ts (0, 0) = { t with u := .sign [0, 1] d, line := some 0, tmr := .idle, armed := true } := by
    rw [← hst1]; exact setTs_get _ _ _
  have a1 : st1.link 0 = some { a with ts := (0, 0), tx := [⟨i, [1]⟩], onList := true } := by
    rw [← hst1]; simp [setTs, setLink]
  have c1 : st1.link 1 = some { c with ts := (0, 0), tx := [b], onList := true } := by
    rw [← hst1]; simp [setTs, setLink, hc]
  have hat1 : At st1 (0, 0) := ⟨⟨l, l1⟩, by decide⟩
  -- it is sent
  have s2 : step st1 (.drvWrite (0, 0)) = .ok
      (setTs (setLink (setTs st1 (0, 0) { t with u := .sign [0, 1] d, line := some 0, tmr := .idle, armed := false }) 0
        (some { a with ts := (0, 0), tx := [], onList := true })) (0, 0)
        { t with u := .sign [0, 1] d, line := some 0, tmr := .pending, armed := false }, [.tx (0, 0) (some 0) ⟨i, [1]⟩]) := by
    have hat1' : At (setLink (setTs st1 (0, 0) { t with u := .sign [0, 1] d, line := some 0, tmr := .idle, armed := false }) 0
        (some { a with ts := (0, 0), tx := [], onList := true })) (0, 0) := hat1
    have a1' : (setTs st1 (0, 0) { t with u := .sign [0, 1] d, line := some 0, tmr := .idle, armed := false }).link 0
      = some { a with ts := (0, 0), tx := [⟨i, [1]⟩], onList := true } := a1
    have t1' : (setLink (setTs st1 (0, 0) { t with u := .sign [0, 1] d, line := some 0, tmr := .idle, armed := false }) 0
        (some { a with ts := (0, 0), tx := [], onList := true })).ts (0, 0)
        = { t with u := .sign [0, 1] d, line := some 0, tmr := .idle, armed := false } := by simp [setLink, setTs]
    simp only [step, drvWrite, tsAt_ok hat1, bind_ok, t1, txScan, linkAt_ok a1', Option.map_some, drvSent, tsAt_ok hat1',
      t1', timerStart, txActs]
  generalize hst2 : setTs (setLink (setTs st1 (0, 0) { t with u := .sign [0, 1] d, line := some 0, tmr := .idle, armed := false }) 0
        (some { a with ts := (0, 0), tx := [], onList := true })) (0, 0)
        { t with u := .sign [0, 1] d, line := some 0, tmr := .pending, armed := false } = st2 at s2
  have l2 : st2.line 0 = some l := by rw [← hst2]; exact l1
  have t2 : st2.ts (0, 0) = { t with u := .sign [0, 1] d, line := some 0, tmr := .pending, armed := false } := by
    rw [← hst2]; exact setTs_get _ _ _
  have a2 : st2.link 0 = some { a with ts := (0, 0), tx := [], onList := true } := by
    rw [← hst2]; simp [setTs, setLink]
  have c2 : st2.link 1 = some { c with ts := (0, 0), tx := [b], onList := true } := by
    rw [← hst2]; simp [setTs, setLink, c1]
  have hat2 : At st2 (0, 0) := ⟨⟨l, l2⟩, by decide⟩
  have s3 : step st2 (.timerFire (0, 0)) = .ok
      (setTs st2 (0, 0) { t with u := .sign [0, 1] d, line := some 0, tmr := .idle, armed := true }, [.wantWrite (0, 0)]) := by
    simp only [step, timerFire, tsAt_ok hat2, bind_ok, t2]
    rfl
  refine ⟨⟨⟨_, ha, rfl⟩, ?_⟩, setTs st2 (0, 0) { t with u := .sign [0, 1] d, line := some 0, tmr := .idle, armed := true },
    [.wantWrite (0, 0), .tx (0, 0) (some 0) ⟨i, [1]⟩, .wantWrite (0, 0)], ?_, ?_, ?_, ?_⟩
  rotate_left 1
  · simp only [round, run, s1, s2, s3, bind_ok]
    rfl
  · refine ⟨⟨l, l2, hp⟩, ⟨d, t, setTs_get _ _ _⟩, ⟨a, a2⟩, ⟨c, c2⟩⟩
  · rfl
  · rfl
  · intro st' acts hs
    rw [s1] at hs
    have := (Prod.mk.inj (Except.ok.inj hs)).1
    subst this
    refine ⟨hat1, ?_⟩
    intro st' acts hs
    rw [s2] at hs
    have := (Prod.mk.inj (Except.ok.inj hs)).1
    subst this
    exact ⟨hat2, fun _ _ _ => trivial⟩

/-- C44 is false: there is a history after which a message is queued on link 1 and from which, for every `n`,
`n` further messages of link 0 (each sent later) can be transmitted one by one, by a driver that
is served again and again, while the message of link 1 stays queued: links earlier in the list always
have priority. -/
theorem fair_violated : ∃ pre b, AdmRun St.init pre ∧ ∀ n, AdmRun St.init (pre ++ rounds n) ∧
    ∃ st acts, run St.init (pre ++ rounds n) = .ok (st, acts) ∧
      (txOf 0 acts).length = n ∧ txOf 1 acts = [] ∧ queueOf st 1 = [b] := by
  let pre := setup ++ [.sendmsg (some 1) ⟨11, [2]⟩]
  have hpre : AdmRun St.init pre := admRunB_ok (by decide +kernel)
  refine ⟨pre, ⟨11, [2]⟩, hpre, ?_⟩
  have key : ∀ n, AdmRun St.init (pre ++ rounds n) ∧ ∃ st acts, run St.init (pre ++ rounds n) = .ok (st, acts) ∧
      Starving ⟨11, [2]⟩ st ∧ (txOf 0 acts).length = n ∧ txOf 1 acts = [] := by
    intro n
    induction n with
    | zero =>
      refine ⟨by simpa [rounds] using hpre, ?_⟩
      obtain ⟨st, acts, hr, h⟩ := after_ok (ops := pre) (p := starvingB) (by decide +kernel)
      simp only [starvingB, Bool.and_eq_true, List.isEmpty_iff, decide_eq_true_eq, beq_iff_eq] at h
      obtain ⟨⟨⟨⟨⟨h1, h2⟩, h3⟩, h4⟩, h5⟩, h6⟩ := h
      refine ⟨st, acts, by simpa [rounds] using hr, ?_, by rw [h5]; rfl, h6⟩
      obtain ⟨x, hx, hxp⟩ := any_ok h1
      obtain ⟨y, hy, hyp⟩ := any_ok h3
      obtain ⟨z, hz, hzp⟩ := any_ok h4
      simp only [idleLinkB, Bool.and_eq_true, decide_eq_true_eq, beq_iff_eq] at hxp hyp hzp
      refine ⟨⟨x, hx, hxp⟩, ?_, ⟨y, ?_⟩, ⟨z, ?_⟩⟩
      · cases hu : (st.ts (0, 0)).u with
        | sign ls d =>
          rw [hu] at h2
          simp only [beq_iff_eq] at h2
          refine ⟨d, st.ts (0, 0), ?_⟩
          obtain ⟨⟨⟨e1, e2⟩, e3⟩, e4⟩ := h2
          subst e1
          rw [← hu, ← e2, ← e3]
          cases hh : st.ts (0, 0)
          rw [hh] at e4
          simp only at e4
          rw [e4]
        | _ => rw [hu] at h2; simp at h2
      · rw [hy]; obtain ⟨⟨e1, e2⟩, e3⟩ := hyp; cases y; simp_all
      · rw [hz]; obtain ⟨⟨e1, e2⟩, e3⟩ := hzp; cases z; simp_all
    | succ n ih =>
      obtain ⟨hadm, st, acts, hr, hst, h1, h2⟩ := ih
      obtain ⟨r1, st', acts', r2, r3, r4, r5⟩ := starving_round hst n
      have e : pre ++ rounds (n + 1) = (pre ++ rounds n) ++ round n := by simp [rounds]
      rw [e]
      refine ⟨admRun_append hadm ?_, st', acts ++ acts', ?_, r3, ?_, ?_⟩
      · intro s a hs
        rw [hr] at hs
        have := (Prod.mk.inj (Except.ok.inj hs)).1
        subst this; exact r1
      · rw [run_append, hr, bind_ok, r2, bind_ok]
      · rw [txOf_append, List.length_append, h1, r4]; rfl
      · rw [txOf_append, h2, r5]; rfl
  intro n
  obtain ⟨h0, st, acts, h1, h2, h3, h4⟩ := key n
  refine ⟨h0, st, acts, h1, h3, h4, ?_⟩
  obtain ⟨x, hx⟩ := h2.b
  simp [queueOf, hx]

end Verif.E1
