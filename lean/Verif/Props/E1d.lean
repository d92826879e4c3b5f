import Verif.Proof.E1dPend
/-!
# C130-C135: the driver for osmo-e1d
-/
set_option maxRecDepth 10000
namespace Verif.E1d

/-! ### Histories for the examples -/

/-- a daemon that reports 32 time slots, all of them off, and refuses nothing -/
def goodEnv : Env := ⟨fun _ => some (32, fun _ => .off), fun _ _ => true, fun _ _ => true⟩

theorem goodEnv_works : Works goodEnv := fun _ => ⟨⟨32, _, rfl, Nat.le_refl _⟩, fun _ => ⟨rfl, rfl⟩⟩

def check (r : M (W × List Act)) (p : W → List Act → Bool) : Bool := match r with | .ok (w, a) => p w a | .error _ => false
def fails (r : M (W × List Act)) (e : Fault) : Bool := match r with | .ok _ => false | .error f => decide (f = e)

/-- a write event, with the result of `write()` -/
def canWrite (n : Int) : Ev := ⟨false, true, none, [], n⟩
/-- a read event, with what is read; `m`, `n`: what the multiplexer produces and what `write()` of it returns -/
def canRead (d : Option (List Byte)) (m : List Byte) (n : Int) : Ev := ⟨true, false, d, m, n⟩

/-! ### C130: descriptors -/

/-- **C130** (partial): in every history with a daemon that always reports all time slots, the only thing that can go wrong is that the
application sends on a time slot of another type; else the opening and closing of time slots is balanced, exactly the open ones are
watched by the select loop, no descriptor is open that no time slot knows, and none is open while there is no connection to the daemon -/
theorem C130_descriptors_partial {E : Env} (hE : Complete E) {ops : List Op} (hv : ∀ op ∈ ops, op.valid = true) :
    (∃ w a, run E init ops = .ok (w, a) ∧
      Balanced (fun _ _ => none) a (openIn w) ∧ (∀ l t, (w.ts l t).reg = true ↔ openIn w l t ≠ none) ∧
      w.opened.Nodup ∧ (∀ f, f ∈ w.opened ↔ ∃ l t m, (w.ts l t).fd = some (f, m)) ∧
      (∀ l t l' t' f m m', (w.ts l t).fd = some (f, m) → (w.ts l' t').fd = some (f, m') → l = l' ∧ t = t') ∧
      (w.conn = false → w.opened = [])) ∨ run E init ops = .error .assert := by
  rcases run_did hE ops init_inv.1 init_inv.2 hv with ⟨w, a, e, d⟩ | e
  · refine .inl ⟨w, a, e, d.bal, ?_, d.inv.nodup, d.inv.mem, fun l t l' t' f m m' => d.inv.inj l t m l' t' m' f, ?_⟩
    · intro l t
      rw [d.inv.reg, openIn]
      cases (w.ts l t).fd <;> simp
    · intro c
      refine List.eq_nil_iff_forall_not_mem.2 ?_
      intro f hf
      obtain ⟨l, t, m, g⟩ := (d.inv.mem f).1 hf
      rw [d.fsm.disc c l t] at g; cases g
  · exact .inr e

/-- the application's error: the assertion is the one of the sending functions -/
theorem C130_assert {E : Env} (hE : Complete E) {ops : List Op} (hv : ∀ op ∈ ops, op.valid = true) (hn : ∀ l t m, Op.send l t m ∉ ops) :
    ∃ w a, run E init ops = .ok (w, a) := by
  have key : ∀ (ops : List Op) {w : W}, Inv w → Fsm w → (∀ op ∈ ops, op.valid = true) → (∀ l t m, Op.send l t m ∉ ops) → ∃ w' a, run E w ops = .ok (w', a) := by
    intro ops
    induction ops with
    | nil => intro w _ _ _ _; exact ⟨w, [], rfl⟩
    | cons op ops ih =>
      intro w h f hv hn
      rcases step_did hE h f (hv op (List.mem_cons_self ..)) with ⟨w1, a, e, d⟩ | ⟨l, t, m, rfl, _⟩
      · obtain ⟨w2, b, e2⟩ := ih d.inv d.fsm (fun o g => hv o (List.mem_cons_of_mem _ g)) (fun l t m g => hn l t m (List.mem_cons_of_mem _ g))
        exact ⟨w2, a ++ b, by simp only [run, e, e2, bind, Except.bind]⟩
      · exact absurd (List.mem_cons_self ..) (hn l t m)
  exact key ops init_inv.1 init_inv.2 hv hn

def lostLater : Env := ⟨fun n => some (if n = 0 then 32 else 16, fun _ => .off), fun _ _ => true, fun _ _ => true⟩

/-- **C130** is violated: if a later query reports fewer time slots, a time slot beyond them is not watched any more but stays open; when
the connection is lost it is unregistered once more -/
theorem C130_unregistered_twice_violated :
    check (run lostLater init [.config 0 20 .hdlc, .update 0 true, .update 0 true])
      (fun w _ => decide (openIn w 0 20 = some .hdlc) && !(w.ts 0 20).reg && w.conn) = true ∧
    fails (run lostLater init [.config 0 20 .hdlc, .config 0 1 .hdlc, .update 0 true, .update 0 true, .event 0 1 (canRead none [] 0)]) .badptr = true := by
  decide +kernel

/-- **C130** is violated: a buffer that was allocated for reading is neither passed on nor freed if reading fails, or if not a whole block
is read -/
theorem C130_leak_violated :
    check (run goodEnv init [.config 0 1 .sign, .config 0 2 .trau, .update 0 true, .event 0 2 (canRead (some (List.replicate 159 0)) [] 1), .event 0 1 (canRead none [] 0)])
      (fun _ a => decide (Act.leak 0 2 ∈ a) && decide (Act.leak 0 1 ∈ a) && decide (received 0 2 a = [])) = true := by
  decide +kernel

/-- a history in which time slots of all types are opened, the connection is lost and re-established -/
theorem C130_example :
    check (run goodEnv init [.config 3 1 .sign, .config 3 2 .trau, .config 4 31 .raw, .update 3 true, .update 4 true, .config 3 2 .none, .update 3 true,
      .event 4 31 (canRead (some []) [] 0)]) (fun w a => decide (w.opened = []) && !w.conn && w.timer &&
        decide (a.filter (fun x => match x with | .opened _ _ _ => true | .closed _ _ => true | _ => false) =
          [.opened 3 1 .hdlc, .opened 3 2 .raw, .closed 3 1, .opened 3 1 .hdlc, .closed 3 2, .opened 3 2 .raw, .opened 4 31 .raw, .closed 3 1, .opened 3 1 .hdlc,
           .closed 3 2, .closed 3 1, .closed 4 31])) = true := by
  decide +kernel

/-! ### C131: the connection to the daemon -/

/-- **C131**: in every history, once a line was used, there is either a connection to the daemon or the timer for the next attempt runs, not
both; before, there is neither -/
theorem C131_retry {E : Env} (hE : Complete E) {ops : List Op} (hv : ∀ op ∈ ops, op.valid = true) {w : W} {a : List Act} (h : run E init ops = .ok (w, a)) :
    (w.fsm = true → (w.timer = true ↔ w.conn = false)) ∧ (w.fsm = false → w.timer = false ∧ w.conn = false) := by
  obtain ⟨_, f, _⟩ := reach hE hv h
  refine ⟨fun g => ?_, fun g => ⟨by rw [f.timer, g]; rfl, ?_⟩⟩
  · rw [f.timer, g]; cases w.conn <;> simp
  · cases hc : w.conn with
    | false => rfl
    | true => have := f.fsm hc; rw [g] at this; cases this

/-- once a line was used, the state machine exists -/
theorem C131_started {E : Env} (hE : Complete E) {ops : List Op} (hv : ∀ op ∈ ops, op.valid = true) {w : W} {a : List Act} (h : run E init ops = .ok (w, a))
    {l : Nat} (hl : l < 256) (ok : Bool) : ∃ w' b, step E w (.update l ok) = .ok (w', b) ∧ w'.fsm = true ∧ w'.used l = true := by
  obtain ⟨i, f, _⟩ := reach hE hv h
  obtain ⟨w1, b, rc, e, _, _, _, _, g1, g2⟩ := lineUpdate_ok hE i f hl ok
  exact ⟨w1, b, by simp only [step, e, Except.map], g1, g2⟩

/-- **C131**: when the connection is lost in a history and an attempt to reconnect succeeds, then all time slots of all lines in use are open
as configured -/
theorem C131_reconnect {E : Env} (hE : Works E) {ops : List Op} (hv : ∀ op ∈ ops, op.valid = true) {w : W} {a : List Act} (h : run E init ops = .ok (w, a))
    (ht : w.timer = true) : ∃ w' b, step E w (.timer true) = .ok (w', b) ∧ w'.conn = true ∧
      ∀ l < 256, w.used l = true → ∀ t, 1 ≤ t → t < 32 → (w'.ts l t).ty = (w.ts l t).ty ∧ AsConfigured (w'.ts l t) := by
  obtain ⟨i, f, _⟩ := reach (works_complete hE) hv h
  have hh : (w.fsm && !w.conn) = true := by rw [← f.timer]; exact ht
  simp only [Bool.and_eq_true, Bool.not_eq_true'] at hh
  have hi : Inv { w with timer := false } := ⟨⟨i.used, i.nodup, i.mem, i.inj, i.lt⟩, i.reg⟩
  obtain ⟨w1, b, e, U, c, _, g⟩ := connect_works (w := { w with timer := false }) hE hi hh.2 hh.1 (f.disc hh.2)
  refine ⟨w1, b, ?_, c, ?_⟩
  · simp only [step]; rw [if_pos ht]; exact e
  · intro l hl hu t h1 h2
    exact ⟨U.ty l t, g l hl hu t (by simp [slots]; omega)⟩

/-- an attempt that fails is repeated -/
theorem C131_again {E : Env} (hE : Complete E) {ops : List Op} (hv : ∀ op ∈ ops, op.valid = true) {w : W} {a : List Act} (h : run E init ops = .ok (w, a))
    (ht : w.timer = true) : ∃ w', step E w (.timer false) = .ok (w', []) ∧ w'.conn = false ∧ w'.timer = true ∧ w'.ts = w.ts ∧ w'.used = w.used := by
  obtain ⟨i, f, _⟩ := reach hE hv h
  have hh : (w.fsm && !w.conn) = true := by rw [← f.timer]; exact ht
  simp only [Bool.and_eq_true, Bool.not_eq_true'] at hh
  have hcli : w.cli = false := f.cli.trans hh.2
  refine ⟨{ w with timer := true }, ?_, hh.2, rfl, rfl, rfl⟩
  simp [step, ht, connect, hh.2, hcli]

theorem truthful_asConfigured {w : W} {l : Nat} (h : ∀ t ∈ slots, AsConfigured (w.ts l t)) (mode : Nat → Mode) : Truthful w l mode := by
  intro t ht f m hf hn
  have := h t ht
  simp only [AsConfigured] at this
  cases hty : (w.ts l t).ty <;> simp only [hty, need] at this hn <;> first | (cases hn; done) | (obtain ⟨⟨f', e⟩, _⟩ := this; rw [hf] at e; cases e; exact Option.some.inj hn)

/-- **C131**: in every history, if the daemon answers all requests and reports the mode of the time slots that are open, then an update of
a line that is not refused opens all its time slots as configured, whatever they were before -/
theorem C131_update {E : Env} (hE : Works E) {ops : List Op} (hv : ∀ op ∈ ops, op.valid = true) {w : W} {a : List Act} (h : run E init ops = .ok (w, a))
    {l : Nat} (hl : l < 256) (hc : w.conn = true ∨ w.fsm = false)
    (ht : ∀ num mode, E.query w.upd = some (num, mode) → ∀ t f m, (w.ts l t).fd = some (f, m) → mode t = m) :
    ∃ w' b, lineUpdate E w l true = .ok (w', b, 0) ∧ w'.conn = true ∧
      ∀ t, 1 ≤ t → t < 32 → (w'.ts l t).ty = (w.ts l t).ty ∧ AsConfigured (w'.ts l t) := by
  obtain ⟨i, f, _⟩ := reach (works_complete hE) hv h
  have hsl : ∀ t, 1 ≤ t → t < 32 → t ∈ slots := by intro t h1 h2; simp [slots]; omega
  rcases hc with hc | hc
  · obtain ⟨⟨num, mode, hq, hn⟩, ho⟩ := hE w.upd
    obtain ⟨w1, b, e, G, _⟩ := updCore_works (E := E) (use_inv i l) (use_fsm f l) hl hc hq hn ho (by
      intro t _ f' m g _; exact (ht num mode hq t f' m g).symm)
    refine ⟨w1, b, ?_, G.conn, fun t h1 h2 => ⟨G.upds.ty l t, G.cfg t (hsl t h1 h2)⟩⟩
    simp only [lineUpdate, bind, Except.bind]
    rw [if_pos (f.fsm hc)]
    exact e
  · have hcc : w.conn = false := by
      cases hx : w.conn with
      | false => rfl
      | true => have := f.fsm hx; rw [hc] at this; cases this
    have hi := use_inv i l
    have hi2 : Inv { w with used := fun a => if a = l then true else w.used a, fsm := true } := ⟨⟨hi.used, hi.nodup, hi.mem, hi.inj, hi.lt⟩, hi.reg⟩
    obtain ⟨w1, b, e, U, c, _, g⟩ := connect_works hE hi2 hcc rfl (f.disc hcc)
    obtain ⟨⟨num, mode, hq, hn⟩, ho⟩ := hE w1.upd
    obtain ⟨w2, b2, e2, G, _⟩ := updCore_works U.did.inv U.did.fsm hl c hq hn ho (truthful_asConfigured (g l hl (if_pos rfl)) mode)
    refine ⟨w2, b ++ b2, ?_, G.conn, fun t h1 h2 => ⟨(G.upds.ty l t).trans (U.ty l t), G.cfg t (hsl t h1 h2)⟩⟩
    simp only [lineUpdate, bind, Except.bind]
    rw [if_neg (by rw [hc]; intro e; cases e)]
    simp only [e, e2]

/-- a daemon that reports the modes which the time slots of the example have -/
def truthEnv : Env := ⟨fun n => some (32, fun t => if n < 2 then .off else if t = 1 then .hdlc else if t = 2 then .raw else .off), fun _ _ => true, fun _ _ => true⟩

/-- the hypotheses are met: a first update, and one of a line that is in use and of which a time slot changes its type -/
example : check (run truthEnv init [.config 0 1 .sign, .config 0 2 .trau, .update 0 true, .config 0 2 .hdlc, .config 0 3 .raw, .update 0 true])
    (fun w a => decide (w.ts 0 1 = ⟨.sign, some (2, .hdlc), true, false, true, []⟩) && decide (w.ts 0 2 = ⟨.hdlc, some (4, .hdlc), true, false, false, []⟩) &&
      decide (w.ts 0 3 = ⟨.raw, some (5, .raw), true, false, false, []⟩) && decide (a.length = 9)) = true := by
  decide +kernel

example : check (run goodEnv init [.config 0 1 .sign, .update 0 false, .config 5 2 .trau, .update 5 true, .timer true])
    (fun w _ => w.conn && decide ((w.ts 0 1).fd = some (0, .hdlc)) && decide ((w.ts 5 2).fd = some (1, .raw)) && (w.ts 5 2).reg) = true := by
  decide +kernel

/-! ### C132: no message of a raw or HDLC time slot is lost before it is written, duplicated or reordered -/

/-- **C132**: for every history, and every part of it in which a raw or HDLC time slot is not configured: what was queued before and was sent
is what was given to `write()`, followed by what is still queued, each message once and in the order of sending -/
theorem C132_fifo {E : Env} (hE : Complete E) {pre ops : List Op} (hv : ∀ op ∈ pre ++ ops, op.valid = true) {w w' : W} {a b : List Act}
    (h : run E init pre = .ok (w, a)) (h' : run E w ops = .ok (w', b)) {l t : Nat} (hu : Unchanged l t ops) (ht : (w.ts l t).ty = .raw ∨ (w.ts l t).ty = .hdlc) :
    (w.ts l t).q ++ sent l t ops = written l t b ++ (w'.ts l t).q := by
  obtain ⟨i, f, _⟩ := reach hE (fun o m => hv o (List.mem_append.2 (.inl m))) h
  exact (run_fifo hE l t ops i f (fun o m => hv o (List.mem_append.2 (.inr m))) hu ht h').1

/-- a history with two messages, one of which is written before the connection is lost -/
example : check (run goodEnv init [.config 0 1 .hdlc, .update 0 true, .send 0 1 [1, 2], .send 0 1 [3], .event 0 1 (canWrite 2), .event 0 1 (canRead none [] 0), .send 0 1 [4]])
    (fun w a => decide (written 0 1 a = [[1, 2]]) && decide ((w.ts 0 1).q = [[3], [4]])) = true := by
  decide +kernel

/-- a message that cannot be written as a whole is not repeated: on a raw time slot the rest of it is lost, on an HDLC time slot the connection is
given up as well -/
theorem C132_short_write_violated :
    check (run goodEnv init [.config 0 1 .raw, .config 0 2 .hdlc, .update 0 true, .send 0 1 [1, 2, 3], .event 0 1 (canWrite 1), .event 0 1 (canWrite 2)])
      (fun w a => decide (written 0 1 a = [[1, 2, 3]]) && decide ((w.ts 0 1).q = []) && w.conn) = true ∧
    check (run goodEnv init [.config 0 1 .raw, .config 0 2 .hdlc, .update 0 true, .send 0 2 [1, 2, 3], .event 0 2 (canWrite 1)])
      (fun w a => decide (written 0 2 a = [[1, 2, 3]]) && decide ((w.ts 0 2).q = []) && !w.conn) = true := by
  decide +kernel

/-- **C132**: in every state, what is read on a watched raw (a whole block), HDLC or signalling time slot is passed on as it is, once, and nothing
else happens -/
theorem C132_receive {E : Env} {w : W} {l t : Nat} (hc : w.conn = true) (hr : (w.ts l t).reg = true) {d : List Byte}
    (hd : ((w.ts l t).ty = .raw ∧ d.length = 160) ∨ ((w.ts l t).ty = .hdlc ∧ 0 < d.length ∧ d.length ≤ 4096) ∨ ((w.ts l t).ty = .sign ∧ 0 < d.length ∧ d.length ≤ 284)) :
    step E w (.event l t (canRead (some d) [] 0)) = .ok (w, [.rx l t d]) := by
  have e : ∀ n, d.length ≤ n → readRes n (some d) = some d := by
    intro n h; simp only [readRes, Option.map_some, List.take_of_length_le h]
  have hev : ∀ ev : Ev, ev.data = some d → evRead w l t ev = .ok (w, [.rx l t d]) := by
    intro ev he
    rcases hd with ⟨ht, h⟩ | ⟨ht, h1, h2⟩ | ⟨ht, h1, h2⟩
    · simp only [evRead, ht, rawRead, he, e GRAN (Nat.le_of_eq h)]
      rw [if_pos (show d.length = GRAN from h)]
    · simp only [evRead, ht, hdlcRead, he, e HDLC_READ h2]
      cases d with
      | nil => cases h1
      | cons b d => rfl
    · simp only [evRead, ht, signRead, he, e SIGN_READ h2]
      cases d with
      | nil => cases h1
      | cons b d => rfl
  simp only [step]
  rw [if_pos hr]
  simp only [fdCb]
  rw [if_pos hc]
  simp only [opt, canRead, if_true, bind, Except.bind, Bool.false_and, Bool.false_eq_true, if_false]
  rw [hev _ rfl]
  rfl

example : check (run goodEnv init [.config 0 1 .hdlc, .config 0 2 .sign, .update 0 true, .event 0 1 (canRead (some [1, 2, 3]) [] 0), .event 0 2 (canRead (some [4]) [] 0)])
    (fun w a => w.conn && (w.ts 0 1).reg && decide (received 0 1 a = [[1, 2, 3]]) && decide (received 0 2 a = [[4]])) = true := by
  decide +kernel

/-! ### C133: queued messages are written -/

/-- **C133** (partial): if in some state of a history all time slots with queued messages are watched for writing, then so they are after any
further part of the history in which no line is updated, the timer does not expire and the connection is not lost -/
theorem C133_watched_partial {E : Env} (hE : Complete E) {pre ops : List Op} (hv : ∀ op ∈ pre ++ ops, op.valid = true) {w w' : W} {a b : List Act}
    (h : run E init pre = .ok (w, a)) (h' : run E w ops = .ok (w', b)) (hu : ∀ l ok, Op.update l ok ∉ ops) (hn : ∀ ok, Op.timer ok ∉ ops) (hc : w'.conn = true)
    (hp : ∀ l t, (w.ts l t).q ≠ [] → (w.ts l t).wr = true) : ∀ l t, (w'.ts l t).q ≠ [] → (w'.ts l t).wr = true := by
  obtain ⟨i, f, ty⟩ := run_typed hE pre init_inv.1 init_inv.2 typed_init (fun o m => hv o (List.mem_append.2 (.inl m))) h
  exact (run_keeps hE ops i f ty (fun o m => hv o (List.mem_append.2 (.inr m))) hu hn h' hc).2 hp

/-- **C133**: a time slot that is connected and watched for writing is emptied by write events: the messages are written in their order and
freed -/
theorem C133_drain {E : Env} (l t : Nat) : ∀ (ms : List (List Byte)) {w : W} {q : List (List Byte)}, w.conn = true → (w.ts l t).reg = true → (w.ts l t).wr = true →
    (w.ts l t).ty = .raw ∨ (w.ts l t).ty = .hdlc → (w.ts l t).q = ms ++ q →
    ∃ w', run E w (ms.map (fun m => .event l t (canWrite m.length))) = .ok (w', ms.flatMap (fun m => [.write l t m m.length, .free l t m])) ∧ (w'.ts l t).q = q ∧
      w'.conn = true ∧ (w'.ts l t).wr = true := by
  intro ms
  induction ms with
  | nil => intro w q hc _ hw _ hq; exact ⟨w, rfl, hq, hc, hw⟩
  | cons m ms ih =>
    intro w q hc hr hw ht hq
    have hq' : (w.ts l t).q = m :: (ms ++ q) := hq
    have hs : step E w (.event l t (canWrite m.length)) = .ok (setTs w l t { w.ts l t with q := ms ++ q }, [.write l t m m.length, .free l t m]) := by
      simp only [step]
      rw [if_pos hr]
      simp only [fdCb]
      rw [if_pos hc]
      have hev : ∀ ev : Ev, ev.n = m.length → evWrite w l t ev = .ok (setTs w l t { w.ts l t with q := ms ++ q }, [.write l t m m.length, .free l t m]) := by
        intro ev hn
        have hraw : rawWrite w l t ev.n = .ok (setTs w l t { w.ts l t with q := ms ++ q }, [.write l t m m.length, .free l t m]) := by
          simp only [rawWrite, hq']
          rw [if_neg (by omega), hn]
        have hhdlc : hdlcWrite w l t ev.n = .ok (setTs w l t { w.ts l t with q := ms ++ q }, [.write l t m m.length, .free l t m]) := by
          simp only [hdlcWrite, hq']
          rw [if_neg (by omega), hn]
        generalize Except.ok (setTs w l t { w.ts l t with q := ms ++ q }, [Act.write l t m m.length, .free l t m]) = r at *
        rcases ht with e | e <;> simp only [evWrite, e]
        · exact hraw
        · exact hhdlc
      have hwr : ((canWrite (m.length : Int)).wr && (w.ts l t).wr) = true := by rw [hw]; rfl
      rw [hwr]
      simp only [opt, canWrite, Bool.false_eq_true, if_false, if_true, bind, Except.bind]
      rw [hev _ rfl]
      rfl
    have hts : (setTs w l t { w.ts l t with q := ms ++ q }).ts l t = { w.ts l t with q := ms ++ q } := setTs_self ..
    obtain ⟨w2, e2, g⟩ := ih (w := setTs w l t { w.ts l t with q := ms ++ q }) (q := q) hc (by rw [hts]; exact hr) (by rw [hts]; exact hw) (by rw [hts]; exact ht) (by rw [hts])
    refine ⟨w2, ?_, g⟩
    simp only [List.map_cons, run, hs, e2, bind, Except.bind, List.flatMap_cons]

/-- the hypotheses are met: two messages are queued and written -/
example : check (run goodEnv init [.config 0 1 .raw, .update 0 true, .send 0 1 [1, 2], .send 0 1 [3], .event 0 1 (canWrite 2), .event 0 1 (canWrite 1)])
    (fun w a => decide (written 0 1 a = [[1, 2], [3]]) && decide ((w.ts 0 1).q = []) && (w.ts 0 1).wr && w.conn) = true := by
  decide +kernel

/-- **C133** is violated: an update of the line (for example, to configure another time slot) stops the watching of queued messages; without a
further message they are not written although the time slot is ready -/
theorem C133_update_violated :
    check (run goodEnv init [.config 0 1 .hdlc, .update 0 true, .send 0 1 [1, 2], .update 0 true, .event 0 1 (canWrite 2), .event 0 1 (canWrite 2)])
      (fun w a => decide ((w.ts 0 1).q = [[1, 2]]) && decide (written 0 1 a = []) && w.conn && (w.ts 0 1).reg && !(w.ts 0 1).wr) = true := by
  decide +kernel

/-- **C133** is violated: messages that were sent while there was no connection, or queued when it was lost, are not written after the
reconnection -/
theorem C133_reconnect_violated :
    check (run goodEnv init [.config 0 1 .hdlc, .update 0 true, .event 0 1 (canRead none [] 0), .send 0 1 [1, 2], .timer true, .event 0 1 (canWrite 2)])
      (fun w a => decide ((w.ts 0 1).q = [[1, 2]]) && decide (written 0 1 a = []) && w.conn && (w.ts 0 1).reg && !(w.ts 0 1).wr) = true := by
  decide +kernel

/-! ### C134: TRAU time slots -/

/-- the order of the bits is reversed -/
theorem C134_rev : ∀ (b : Byte) (i : Fin 8), (rev b).getLsbD i = b.getLsbD (7 - i) := by decide +kernel

theorem rev_rev : ∀ b : Byte, rev (rev b) = b := by decide +kernel

theorem map_rev_rev (d : List Byte) : (d.map rev).map rev = d := by
  induction d with
  | nil => rfl
  | cons b d ih => simp only [List.map_cons, rev_rev, ih]

/-- **C134**: in every state, a block that is read on a TRAU time slot is given to the line input with the order of the bits of each octet
reversed, and then one block is written, what the multiplexer produces with the order of the bits reversed; the connection stays if
something was written -/
theorem C134_block {E : Env} {w : W} {l t : Nat} (hc : w.conn = true) (hr : (w.ts l t).reg = true) (ht : (w.ts l t).ty = .trau) {d m : List Byte} {n : Int}
    (hd : d.length = 160) (hn : 0 < n) :
    ∃ r x, step E w (.event l t (canRead (some d) m n)) = .ok (w, [.rx l t r, .write l t x n]) ∧
      r.length = d.length ∧ x.length = m.length ∧ r.map rev = d ∧ x.map rev = m := by
  refine ⟨d.map rev, m.map rev, ?_, by simp, by simp, map_rev_rev d, map_rev_rev m⟩
  simp only [step]
  rw [if_pos hr]
  simp only [fdCb]
  rw [if_pos hc]
  have e : readRes GRAN (some d) = some d := by
    simp only [readRes, Option.map_some]
    rw [List.take_of_length_le]
    rw [hd]; exact Nat.le_refl _
  simp only [canRead, opt, if_true, bind, Except.bind, evRead, ht, trauRead, e]
  rw [if_pos (show d.length = GRAN from hd)]
  simp only [trauWrite]
  rw [if_neg (by omega)]
  simp

/-- **C134**: in every history, as many blocks are written to a TRAU time slot as were received from it -/
theorem C134_paced {E : Env} (hE : Complete E) {pre ops : List Op} (hv : ∀ op ∈ pre ++ ops, op.valid = true) {w w' : W} {a b : List Act}
    (h : run E init pre = .ok (w, a)) (h' : run E w ops = .ok (w', b)) {l t : Nat} (hu : Unchanged l t ops) (ht : (w.ts l t).ty = .trau) :
    (received l t b).length = (written l t b).length := by
  obtain ⟨i, f, _⟩ := reach hE (fun o m => hv o (List.mem_append.2 (.inl m))) h
  exact (run_slot hE l t .trau ⟨by decide, by decide⟩ (fun r w => r.length = w.length) rfl
    (by intro r1 w1 r2 w2 h1 h2; simp only [List.length_append, h1, h2]) (fun w e w' a hi hf ht hs => trau_event hi hf ht hs) ops i f
    (fun o m => hv o (List.mem_append.2 (.inr m))) hu ht h').1

example : check (run goodEnv init [.config 0 1 .trau, .update 0 true, .event 0 1 (canRead (some (List.replicate 160 0x01)) [0x35] 160),
      .event 0 1 (canRead (some (List.replicate 161 0xf0)) [0x35] 160)])
    (fun w a => decide (received 0 1 a = [List.replicate 160 0x80, List.replicate 160 0x0f]) && decide (written 0 1 a = [[0xac], [0xac]]) && w.conn) = true := by
  decide +kernel

/-- **C134** is violated for I.460: in every history, nothing is read from and nothing written to a time slot of this type, although it is opened
and watched -/
theorem C134_i460_violated {E : Env} (hE : Complete E) {pre ops : List Op} (hv : ∀ op ∈ pre ++ ops, op.valid = true) {w w' : W} {a b : List Act}
    (h : run E init pre = .ok (w, a)) (h' : run E w ops = .ok (w', b)) {l t : Nat} (hu : Unchanged l t ops) (ht : (w.ts l t).ty = .i460) :
    received l t b = [] ∧ written l t b = [] := by
  obtain ⟨i, f, _⟩ := reach hE (fun o m => hv o (List.mem_append.2 (.inl m))) h
  exact (run_slot hE l t .i460 ⟨by decide, by decide⟩ (fun r w => r = [] ∧ w = []) ⟨rfl, rfl⟩
    (by intro r1 w1 r2 w2 h1 h2; rw [h1.1, h1.2, h2.1, h2.2]; exact ⟨rfl, rfl⟩)
    (by intro w e w' a hi hf ht hs; rw [(i460_event hi hf ht hs).1]; exact ⟨rfl, rfl⟩) ops i f
    (fun o m => hv o (List.mem_append.2 (.inr m))) hu ht h').1

example : check (run goodEnv init [.config 0 1 .i460, .update 0 true, .event 0 1 (canRead (some (List.replicate 160 1)) [] 160)])
    (fun w a => decide (openIn w 0 1 = some .raw) && (w.ts 0 1).reg && decide (received 0 1 a = [])) = true := by
  decide +kernel

/-! ### C135: alarms -/

/-- the signal that belongs to an alarm -/
def signals : List (Alarm × Sig) :=
  [(.losOn, .los), (.losOff, .nolos), (.aisOn, .ais), (.aisOff, .noais), (.raiOn, .rai), (.raiOff, .norai), (.lofOn, .lof), (.lofOff, .nolof)]

theorem find_port {ports : List (Nat × Nat)} {l p : Nat} (hm : (l, p) ∈ ports) (hu : ∀ x ∈ ports, x.2 = p → x.1 = l) : portFind ports p = some l := by
  simp only [portFind]
  cases hf : ports.find? (fun x => x.2 == p) with
  | none =>
    have := List.find?_eq_none.1 hf _ hm
    simp at this
  | some x =>
    have h1 := List.mem_of_find?_eq_some hf
    have h2 := List.find?_some hf
    simp only [beq_iff_eq] at h2
    simp only [Option.map_some, hu x h1 h2]

theorem port_split : ∀ p : Byte, (intfOf p <<< 4 ||| lineOf p) = p := by decide +kernel

/-- **C135** (partial): if no two lines have the same port number, an alarm that the daemon reports for the interface and line of a port is
signalled for the line with this port, with the signal that belongs to it; Sa bits with their value -/
theorem C135_alarm_partial {ports : List (Nat × Nat)} {l : Nat} {p : Byte} (hm : (l, p.toNat) ∈ ports) (hu : ∀ x ∈ ports, x.2 = p.toNat → x.1 = l) :
    (∀ x ∈ signals, ∀ data, eventCb ports x.1 (intfOf p) (lineOf p) data = some (l, x.2, 0)) ∧
    (∀ b rest, eventCb ports .sabits (intfOf p) (lineOf p) (b :: rest) = some (l, .saBits, b)) ∧
    eventCb ports .sabits (intfOf p) (lineOf p) [] = none ∧ (∀ data, eventCb ports .other (intfOf p) (lineOf p) data = none) := by
  have hf := find_port hm hu
  refine ⟨?_, fun b rest => ?_, ?_, fun data => ?_⟩
  · intro x hx data
    simp only [eventCb, port_split, hf]
    simp only [signals, List.mem_cons, List.not_mem_nil, or_false] at hx
    rcases hx with rfl | rfl | rfl | rfl | rfl | rfl | rfl | rfl <;> rfl
  · simp only [eventCb, port_split, hf]; rfl
  · simp only [eventCb, port_split, hf]; rfl
  · simp only [eventCb, port_split, hf]; rfl

/-- **C135**: an alarm for a port that no line has is not signalled -/
theorem C135_unknown {ports : List (Nat × Nat)} {p : Byte} (h : ∀ x ∈ ports, x.2 ≠ p.toNat) (ev : Alarm) (data : List Byte) :
    eventCb ports ev (intfOf p) (lineOf p) data = none := by
  have : portFind ports p.toNat = none := by
    simp only [portFind, Option.map_eq_none_iff, List.find?_eq_none, beq_iff_eq]
    exact h
  simp only [eventCb, port_split, this]

/-- three lines of an application -/
example : eventCb [(0, 0x00), (1, 0x01), (2, 0x10)] .raiOn (intfOf 0x10) (lineOf 0x10) [] = some (2, .rai, 0) := by decide +kernel

/-- **C135** is violated: an alarm of interface 16 is signalled for the line on interface 0 -/
theorem C135_truncated_violated : eventCb [(0, 0x00), (1, 0x01)] .losOn 16 1 [] = some (1, .los, 0) := by decide +kernel

/-- **C135** is violated: ports are compared without regard to the driver: if a line of another driver with the same port number was created
before, it gets the alarm -/
theorem C135_other_driver_violated : ∃ ports : List (Nat × Nat), (1, 0x00) ∈ ports ∧ eventCb ports .losOn 0 0 [] = some (7, .los, 0) :=
  ⟨[(7, 0x00), (1, 0x00)], by decide, by decide +kernel⟩

end Verif.E1d
