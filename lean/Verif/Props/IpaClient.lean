import Verif.Spec.IpaClient
/-!
# C39, C40: IPA client connections
-/
set_option maxRecDepth 10000
namespace Verif.Ipa.Cli

theorem bind_ok {α β : Type} (x : α) (f : α → M β) : (Except.ok x >>= f) = f x := rfl
theorem bind_err {α β : Type} (e : Fault) (f : α → M β) : ((Except.error e : M α) >>= f) = .error e := rfl
theorem map_ok {α β : Type} (x : α) (f : α → β) : (Except.ok x : M α).map f = .ok (f x) := rfl

theorem use_ok {c : Conn} (h : c.gone = false) : use c = .ok () := by simp [use, h]

structure Inv (c : Conn) : Prop where
  reg : c.reg = c.fd.isSome
  timer : c.timer = true → c.fd.isSome = true ∧ c.state = .connecting
  gone : c.gone = true → c.fd = none ∧ ∀ m, Frame.afterDownWrite m ∉ c.frames
  rd : ∀ g wr snd, Frame.afterRead g wr snd ∈ c.frames → g ≤ c.gen ∧ (g = c.gen → c.fd.isSome = true → c.state = .connected)

/-- the phase of a connection between operations -/
def phase (c : Conn) : Phase :=
  match c.fd with
  | none => .closed
  | some f => match c.state with
    | .connecting => .opening f
    | .connected => .up f

/-- what one operation does: no fault, invariant kept, observations allowed, messages neither lost nor
reordered -/
structure Good (c : Conn) (op : Op) (c' : Conn) (a : List Act) : Prop where
  inv : Inv c'
  ph : c.updown = true → ∃ q, (phase c).acts a = some q ∧ q.settle = phase c'
  updown : c'.updown = c.updown
  readCb : c'.readCb = c.readCb
  fifo : op ≠ .clear → c.queue ++ sends [op] = handed a ++ c'.queue
  sub : (handed a ++ c'.queue).Sublist (c.queue ++ sends [op])
  msgs : (freed a ++ c'.queue ++ inflight c'.frames).Perm (inflight c.frames ++ c.queue ++ sends [op])
  one : (handed a).length ≤ 1

theorem close_some {c : Conn} {f : Nat} (hg : c.gone = false) (hf : c.fd = some f) (hr : c.reg = true) :
    close c = .ok ({ c with timer := false, reg := false, fd := none }, [.closeFd f]) := by
  simp only [close, use_ok hg, bind_ok, hf, hr, if_true]

theorem phase_none {c : Conn} (h : c.fd = none) : phase c = .closed := by simp [phase, h]

theorem inv_closed {c : Conn} (h : Inv c) (hg : c.gone = false) (fs : List Frame) (q : List Msg)
    (hfs : ∀ g wr snd, Frame.afterRead g wr snd ∈ fs → Frame.afterRead g wr snd ∈ c.frames) :
    Inv { c with timer := false, reg := false, fd := none, frames := fs, queue := q } where
  reg := rfl
  timer := by intro h; cases h
  gone := by intro h2; simp only at h2; rw [hg] at h2; cases h2
  rd := by
    intro g wr snd hm
    refine ⟨(h.rd g wr snd (hfs g wr snd hm)).1, ?_⟩
    intro _ h2; cases h2

theorem good_fail {c : Conn} (h : Inv c) {f : Nat} (hf : c.fd = some f) (hg : c.gone = false) (op : Op) (hs : sends [op] = [])
    (t : Bool) :
    ∃ c' a, ((do let (c, a) ← close { c with timer := t }; let (c, b) := callDown c .done; .ok (c, a ++ b)) : M (Conn × List Act)) = .ok (c', a) ∧ Good c op c' a := by
  have hr : c.reg = true := h.reg.trans (by rw [hf]; rfl)
  rw [close_some (c := { c with timer := t }) hg hf hr, bind_ok]
  simp only [callDown]
  have hph : (phase c).acts [.closeFd f, .down] = some .closed ∧ (phase c).acts [.closeFd f] = some .closing := by
    simp only [phase, hf]
    cases c.state <;> simp [Phase.acts, Phase.next]
  by_cases hu : c.updown = true
  · rw [if_pos hu]
    refine ⟨_, _, rfl, ?_⟩
    refine ⟨?_, ?_, rfl, rfl, ?_, ?_, ?_, ?_⟩
    · exact inv_closed h hg (.done :: c.frames) c.queue (by intro g wr snd hm; rcases List.mem_cons.1 hm with h | h; cases h; exact h)
    · intro _; exact ⟨_, hph.1, rfl⟩
    · intro _; rw [hs]; simp [handed]
    · rw [hs]; simp [handed]
    · rw [hs]; simp [freed, inflight]
      exact List.perm_append_comm
    · simp [handed]
  · rw [if_neg hu]
    refine ⟨_, _, rfl, ?_⟩
    refine ⟨?_, fun h => absurd h hu, rfl, rfl, ?_, ?_, ?_, ?_⟩
    · exact inv_closed h hg c.frames c.queue (fun g wr snd hm => hm)
    · intro _; rw [hs]; simp [handed]
    · rw [hs]; simp [handed]
    · rw [hs]; simp [freed, inflight]
      exact List.perm_append_comm
    · simp [handed]

theorem inv_frames {c : Conn} (h : Inv c) {f : Frame} {fs : List Frame} (e : c.frames = f :: fs) : Inv { c with frames := fs } where
  reg := h.reg
  timer := h.timer
  gone := by
    intro hg
    refine ⟨(h.gone hg).1, fun m hm => (h.gone hg).2 m ?_⟩
    rw [e]; exact List.mem_cons_of_mem _ hm
  rd := by
    intro g wr snd hm
    refine h.rd g wr snd ?_
    rw [e]; exact List.mem_cons_of_mem _ hm

theorem perm_q (m : Msg) (i q : List Msg) : (m :: q ++ i).Perm (i ++ m :: q) := List.perm_append_comm

theorem write_nil {c : Conn} (hg : c.gone = false) (hq : c.queue = []) (snd : Snd) : write c snd = .ok ({ c with wr := false }, []) := by
  obtain ⟨fd, reg, wr, timer, state, queue, updown, readCb, frames, gone, gen⟩ := c
  simp only at hg hq
  subst hg hq; rfl

theorem write_cons {c : Conn} {m : Msg} {q : List Msg} {f : Nat} (hg : c.gone = false) (hq : c.queue = m :: q) (hf : c.fd = some f) {snd : Snd}
    (hs : snd ≠ .pipe) : write c snd = .ok ({ c with queue := q }, [.sendTo (some f) m, .free m]) := by
  obtain ⟨fd, reg, wr, timer, state, queue, updown, readCb, frames, gone, gen⟩ := c
  simp only at hg hq hf
  subst hg hq hf
  cases snd with
  | count n => rfl
  | other => rfl
  | pipe => exact absurd rfl hs

theorem write_pipe {c : Conn} {m : Msg} {q : List Msg} {f : Nat} (hg : c.gone = false) (hq : c.queue = m :: q) (hf : c.fd = some f)
    (hr : c.reg = true) : write c .pipe = .ok (if c.updown then
      ({ c with queue := q, timer := false, reg := false, fd := none, frames := .afterDownWrite m :: c.frames }, [.sendTo (some f) m, .closeFd f, .down])
      else ({ c with queue := q, timer := false, reg := false, fd := none }, [.sendTo (some f) m, .closeFd f, .free m])) := by
  obtain ⟨fd, reg, wr, timer, state, queue, updown, readCb, frames, gone, gen⟩ := c
  simp only at hg hq hf hr
  subst hg hq hf hr
  cases updown <;> rfl

/-- the write part of an event, in the main loop or after the read callback -/
theorem good_write {c : Conn} (h : Inv c) {f : Nat} (hf : c.fd = some f) (hst : c.state = .connected) (hg : c.gone = false)
    (op : Op) (hs : sends [op] = []) (rc : Int) (wr : Bool) (snd : Snd) :
    ∃ c' a, writePart c rc wr snd = .ok (c', a) ∧ Good c op c' a := by
  have hr : c.reg = true := h.reg.trans (by rw [hf]; rfl)
  have hph : phase c = .up f := by simp [phase, hf, hst]
  unfold writePart
  by_cases hc : rc ≠ -EBADF ∧ wr = true
  · rw [if_pos hc]
    cases hq : c.queue with
    | nil =>
      refine ⟨_, _, write_nil hg hq snd, ⟨⟨h.reg, h.timer, h.gone, h.rd⟩, ?_, rfl, rfl, ?_, ?_, ?_, ?_⟩⟩
      · intro _; exact ⟨_, rfl, by rw [hph]; simp [phase, hf, hst, Phase.settle]⟩
      · intro _; rw [hs, hq]; simp [handed, hq]
      · rw [hs, hq]; simp [handed, hq]
      · rw [hs, hq]; simp [freed, hq]
      · simp [handed]
    | cons m q =>
      by_cases hp : snd = .pipe
      · subst hp
        by_cases hu : c.updown = true
        · refine ⟨{ c with queue := q, timer := false, reg := false, fd := none, frames := .afterDownWrite m :: c.frames },
            [.sendTo (some f) m, .closeFd f, .down], by rw [write_pipe hg hq hf hr, if_pos hu], ⟨?_, ?_, rfl, rfl, ?_, ?_, ?_, ?_⟩⟩
          · exact inv_closed h hg (.afterDownWrite m :: c.frames) q (by intro g wr snd hm; rcases List.mem_cons.1 hm with h | h; cases h; exact h)
          · intro _; exact ⟨.closed, by rw [hph]; simp [Phase.acts, Phase.next], rfl⟩
          · intro _; rw [hs, hq]; simp [handed]
          · rw [hs, hq]; simp [handed]
          · rw [hs, hq]
            simp only [freed, inflight, List.filterMap_cons_some, List.filterMap_cons_none, List.filterMap_nil, List.nil_append, List.append_nil,
              List.cons_append]
            exact (List.perm_middle).trans (perm_q m _ q)
          · simp [handed]
        · refine ⟨{ c with queue := q, timer := false, reg := false, fd := none },
            [.sendTo (some f) m, .closeFd f, .free m], by rw [write_pipe hg hq hf hr, if_neg hu], ⟨?_, fun h => absurd h hu, rfl, rfl, ?_, ?_, ?_, ?_⟩⟩
          · exact inv_closed h hg c.frames q (fun g wr snd hm => hm)
          · intro _; rw [hs, hq]; simp [handed]
          · rw [hs, hq]; simp [handed]
          · rw [hs, hq]; simp [freed]
            exact perm_q m _ q
          · simp [handed]
      · refine ⟨_, _, write_cons hg hq hf hp, ⟨⟨h.reg, h.timer, h.gone, h.rd⟩, ?_, rfl, rfl, ?_, ?_, ?_, ?_⟩⟩
        · intro _
          refine ⟨.up f, ?_, ?_⟩
          · rw [hph]; simp [Phase.acts, Phase.next]
          · simp [phase, hf, hst, Phase.settle]
        · intro _; rw [hs, hq]; simp [handed]
        · rw [hs, hq]; simp [handed]
        · rw [hs, hq]; simp [freed]
          exact perm_q m _ q
        · simp [handed]
  · rw [if_neg hc]
    refine ⟨_, _, rfl, ⟨h, ?_, rfl, rfl, ?_, ?_, ?_, ?_⟩⟩
    · intro _; exact ⟨_, rfl, by rw [hph]; simp [Phase.settle]⟩
    · intro _; rw [hs]; simp [handed]
    · rw [hs]; simp [handed]
    · rw [hs]; simp [freed]
      exact List.perm_append_comm
    · simp [handed]

theorem settle_phase (c : Conn) : (phase c).settle = phase c := by
  unfold phase
  cases c.fd with
  | none => rfl
  | some f => simp only; cases c.state <;> rfl

/-- an operation that changes nothing of interest -/
theorem good_idle {c c' : Conn} {op : Op} (hi : Inv c') (hp : phase c' = phase c) (hu : c'.updown = c.updown) (hr : c'.readCb = c.readCb)
    (hq : c'.queue = c.queue) (hf : inflight c'.frames = inflight c.frames) (hs : sends [op] = []) : Good c op c' [] := by
  refine ⟨hi, fun _ => ⟨_, rfl, by rw [hp, settle_phase]⟩, hu, hr, ?_, ?_, ?_, by simp [handed]⟩
  · intro _; rw [hs, hq]; simp [handed]
  · rw [hs, hq]; simp [handed]
  · rw [hs, hq, hf]; simp [freed]
    exact List.perm_append_comm

theorem step_open_busy {c : Conn} {f : Nat} (hg : c.gone = false) (hf : c.fd = some f) (t : Nat) (s : Except Int Nat) (r : Bool) :
    step c (.open2 t s r) = .ok (c, []) := by
  obtain ⟨fd, reg, wr, timer, state, queue, updown, readCb, frames, gone, gen⟩ := c
  simp only at hg hf
  subst hg hf
  rfl

theorem step_open_err {c : Conn} (hg : c.gone = false) (hf : c.fd = none) (t : Nat) (e : Int) (r : Bool) :
    step c (.open2 t (.error e) r) = .ok ({ c with state := .connecting }, []) := by
  obtain ⟨fd, reg, wr, timer, state, queue, updown, readCb, frames, gone, gen⟩ := c
  simp only at hg hf
  subst hg hf
  rfl

theorem step_open_ok {c : Conn} (hg : c.gone = false) (hf : c.fd = none) (t f : Nat) :
    step c (.open2 t (.ok f) true) = .ok ({ c with state := .connecting, fd := some f, reg := true, wr := true, timer := decide (t > 0) || c.timer, gen := c.gen + 1 }, [.opened f]) := by
  obtain ⟨fd, reg, wr, timer, state, queue, updown, readCb, frames, gone, gen⟩ := c
  simp only at hg hf
  subst hg hf
  rfl

theorem step_open_noreg {c : Conn} (hg : c.gone = false) (hf : c.fd = none) (t f : Nat) :
    step c (.open2 t (.ok f) false) = .ok ({ c with state := .connecting, wr := true }, [.opened f, .closeFd f]) := by
  obtain ⟨fd, reg, wr, timer, state, queue, updown, readCb, frames, gone, gen⟩ := c
  simp only at hg hf
  subst hg hf
  rfl

theorem step_close_none {c : Conn} (hg : c.gone = false) (hf : c.fd = none) :
    step c .close = .ok ({ c with timer := false }, []) := by
  obtain ⟨fd, reg, wr, timer, state, queue, updown, readCb, frames, gone, gen⟩ := c
  simp only at hg hf
  subst hg hf
  rfl

theorem step_send {c : Conn} (hg : c.gone = false) (m : Msg) :
    step c (.send m) = .ok ({ c with queue := c.queue ++ [m], wr := true }, []) := by
  obtain ⟨fd, reg, wr, timer, state, queue, updown, readCb, frames, gone, gen⟩ := c
  simp only at hg
  subst hg
  rfl

theorem step_clear {c : Conn} (hg : c.gone = false) :
    step c .clear = .ok ({ c with queue := [], wr := false }, c.queue.map .free) := by
  obtain ⟨fd, reg, wr, timer, state, queue, updown, readCb, frames, gone, gen⟩ := c
  simp only at hg
  subst hg
  rfl

theorem step_destroy {c : Conn} (hg : c.gone = false) :
    step c .destroy = .ok ({ c with gone := true }, []) := by
  obtain ⟨fd, reg, wr, timer, state, queue, updown, readCb, frames, gone, gen⟩ := c
  simp only at hg
  subst hg
  rfl

theorem step_fd_connecting {c : Conn} (hg : c.gone = false) (hst : c.state = .connecting) (rd wr err : Bool) (rcv : Rcv) (snd : Snd) :
    step c (.fd rd wr err rcv snd) = if err then connectFailure c else
      .ok (if c.updown then ({ c with timer := false, wr := false, state := .connected, frames := .done :: c.frames }, [.up])
        else ({ c with timer := false, wr := false, state := .connected }, [])) := by
  obtain ⟨fd, reg, wr, timer, state, queue, updown, readCb, frames, gone, gen⟩ := c
  simp only at hg hst
  subst hg hst
  cases err <;> cases updown <;> rfl

theorem step_fd_connected {c : Conn} (hg : c.gone = false) (hst : c.state = .connected) (rd wr err : Bool) (rcv : Rcv) (snd : Snd) :
    step c (.fd rd wr err rcv snd) = if rd then
      (match rcv with
      | .again => writePart c 0 wr snd
      | .err => connectFailure c
      | .msg m =>
        if c.readCb then .ok ({ c with frames := .afterRead c.gen wr snd :: c.frames }, [.deliver m]) else writePart c 0 wr snd)
      else writePart c 0 wr snd := by
  obtain ⟨fd, reg, wr, timer, state, queue, updown, readCb, frames, gone, gen⟩ := c
  simp only at hg hst
  subst hg hst
  cases rd <;> cases rcv <;> cases readCb <;> rfl

theorem step_return_done {c : Conn} {fs : List Frame} (e : c.frames = .done :: fs) (rc : Int) :
    step c (.cbReturn rc) = .ok ({ c with frames := fs }, []) := by
  obtain ⟨fd, reg, wr, timer, state, queue, updown, readCb, frames, gone, gen⟩ := c
  simp only at e
  subst e
  rfl

theorem step_return_read {c : Conn} {fs : List Frame} {g : Nat} {wr : Bool} {snd : Snd} (e : c.frames = .afterRead g wr snd :: fs) (rc : Int) :
    step c (.cbReturn rc) = writePart { c with frames := fs } rc wr snd := by
  obtain ⟨fd, reg, wr, timer, state, queue, updown, readCb, frames, gone, gen⟩ := c
  simp only at e
  subst e
  rfl

theorem step_return_write {c : Conn} {fs : List Frame} {m : Msg} (hg : c.gone = false) (e : c.frames = .afterDownWrite m :: fs) (rc : Int) :
    step c (.cbReturn rc) = .ok ({ c with frames := fs }, [.free m]) := by
  obtain ⟨fd, reg, wr, timer, state, queue, updown, readCb, frames, gone, gen⟩ := c
  simp only at hg e
  subst hg e
  rfl

theorem step_good {c : Conn} {op : Op} (h : Inv c) (ha : Adm c op) : ∃ c' a, step c op = .ok (c', a) ∧ Good c op c' a := by
  cases op with
  | open2 t s r =>
    have hg : c.gone = false := ha
    cases hf : c.fd with
    | some f =>
      refine ⟨_, _, step_open_busy hg hf t s r, good_idle h rfl rfl rfl rfl rfl rfl⟩
    | none =>
      have hni : Inv { c with state := .connecting } := by
        refine ⟨h.reg, ?_, h.gone, ?_⟩
        · intro ht; exact ⟨(h.timer ht).1, rfl⟩
        · intro g wr snd hm
          refine ⟨(h.rd g wr snd hm).1, ?_⟩
          intro _ h2; simp only [hf] at h2; cases h2
      cases s with
      | error e => exact ⟨_, _, step_open_err hg hf t e r, good_idle hni (by simp [phase, hf]) rfl rfl rfl rfl rfl⟩
      | ok f =>
        cases r with
        | true =>
          refine ⟨_, _, step_open_ok hg hf t f, ⟨?_, ?_, rfl, rfl, ?_, ?_, ?_, by simp [handed]⟩⟩
          · refine ⟨rfl, ?_, ?_, ?_⟩
            · intro _; exact ⟨rfl, rfl⟩
            · intro h2; simp only at h2; rw [hg] at h2; cases h2
            · intro g wr snd hm
              have := (h.rd g wr snd hm).1
              refine ⟨Nat.le_succ_of_le this, ?_⟩
              intro e; simp only at e; omega
          · intro _
            refine ⟨.opening f, ?_, rfl⟩
            rw [phase_none hf]; rfl
          · intro _; simp [sends, handed]
          · simp [sends, handed]
          · simp [sends, freed]
            exact List.perm_append_comm
        | false =>
          refine ⟨_, _, step_open_noreg hg hf t f, ⟨?_, ?_, rfl, rfl, ?_, ?_, ?_, by simp [handed]⟩⟩
          · exact ⟨hni.reg, hni.timer, hni.gone, hni.rd⟩
          · intro _
            refine ⟨.closing, ?_, ?_⟩
            · rw [phase_none hf]; simp [Phase.acts, Phase.next]
            · simp [phase, hf, Phase.settle]
          · intro _; simp [sends, handed]
          · simp [sends, handed]
          · simp [sends, freed]
            exact List.perm_append_comm
  | close =>
    have hg : c.gone = false := ha
    cases hf : c.fd with
    | none =>
      have ht : c.timer = false := by
        cases e : c.timer with
        | false => rfl
        | true => have := (h.timer e).1; rw [hf] at this; cases this
      refine ⟨_, _, step_close_none hg hf, good_idle ?_ rfl rfl rfl rfl rfl rfl⟩
      exact ⟨h.reg, (by intro e; cases e), h.gone, h.rd⟩
    | some f =>
      have hr : c.reg = true := h.reg.trans (by rw [hf]; rfl)
      refine ⟨_, _, by simp only [step]; exact close_some hg hf hr, ⟨inv_closed h hg c.frames c.queue (fun g wr snd hm => hm), ?_, rfl, rfl, ?_, ?_, ?_, by simp [handed]⟩⟩
      · intro _
        refine ⟨.closing, ?_, rfl⟩
        simp only [phase, hf]
        cases c.state <;> simp [Phase.acts, Phase.next]
      · intro _; simp [sends, handed]
      · simp [sends, handed]
      · simp [sends, freed]
        exact List.perm_append_comm
  | send m =>
    have hg : c.gone = false := ha
    refine ⟨_, _, step_send hg m, ⟨⟨h.reg, h.timer, h.gone, h.rd⟩, ?_, rfl, rfl, ?_, ?_, ?_, by simp [handed]⟩⟩
    · intro _; exact ⟨_, rfl, settle_phase c⟩
    · intro _; simp [sends, handed]
    · simp [sends, handed]
    · simp [sends, freed]
      rw [List.perm_iff_count]
      intro x
      simp only [List.count_append, List.count_cons, List.count_nil]
      omega
  | clear =>
    have hg : c.gone = false := ha
    have hfr : ∀ q : List Msg, freed (q.map Act.free) = q ∧ handed (q.map Act.free) = [] := by
      intro q
      induction q with
      | nil => exact ⟨rfl, rfl⟩
      | cons m q ih =>
        refine ⟨?_, ih.2⟩
        have : freed ((m :: q).map Act.free) = m :: freed (q.map Act.free) := rfl
        rw [this, ih.1]
    have hfp : ∀ (q : List Msg) (p : Phase), p.acts (q.map Act.free) = some p := by
      intro q p
      induction q with
      | nil => rfl
      | cons m q ih =>
        simp only [List.map_cons, Phase.acts]
        have : p.next (.free m) = some p := by cases p <;> rfl
        rw [this]; exact ih
    refine ⟨_, _, step_clear hg, ⟨⟨h.reg, h.timer, h.gone, h.rd⟩, ?_, rfl, rfl, ?_, ?_, ?_, ?_⟩⟩
    · intro _
      exact ⟨_, hfp _ _, settle_phase c⟩
    · intro e; exact absurd rfl e
    · rw [(hfr _).2]; exact List.nil_sublist _
    · rw [(hfr _).1]; simp [sends]
      exact List.perm_append_comm
    · rw [(hfr _).2]; exact Nat.zero_le _
  | destroy =>
    obtain ⟨hg, hf, hn⟩ := ha
    refine ⟨_, _, step_destroy hg, good_idle ?_ rfl rfl rfl rfl rfl rfl⟩
    exact ⟨h.reg, h.timer, fun _ => ⟨hf, hn⟩, h.rd⟩
  | fd rd wr err rcv snd =>
    obtain ⟨hfr, hr, hw⟩ := ha
    have hfs : c.fd.isSome = true := by rw [← h.reg]; exact hr
    obtain ⟨f, hf⟩ := Option.isSome_iff_exists.1 hfs
    have hg : c.gone = false := by
      cases e : c.gone with
      | false => rfl
      | true => have := (h.gone e).1; rw [hf] at this; cases this
    cases hst : c.state with
    | connecting =>
      rw [step_fd_connecting hg hst]
      cases err with
      | true =>
        simp only [if_true, connectFailure]
        exact good_fail h hf hg _ rfl c.timer
      | false =>
        simp only [Bool.false_eq_true, if_false]
        have hi : ∀ fs, (∀ m, Frame.afterDownWrite m ∉ fs → True) → (∀ g wr snd, Frame.afterRead g wr snd ∈ fs → Frame.afterRead g wr snd ∈ c.frames) →
            Inv { c with timer := false, wr := false, state := .connected, frames := fs } := by
          intro fs _ hsub
          refine ⟨h.reg, (by intro e; cases e), ?_, ?_⟩
          · intro e; simp only at e; rw [hg] at e; cases e
          · intro g wr snd hm
            exact ⟨(h.rd g wr snd (hsub g wr snd hm)).1, fun _ _ => rfl⟩
        by_cases hu : c.updown = true
        · rw [if_pos hu]
          refine ⟨_, _, rfl, ⟨hi (.done :: c.frames) (fun _ _ => trivial) (by intro g wr snd hm; rcases List.mem_cons.1 hm with h | h; cases h; exact h), ?_, rfl, rfl, ?_, ?_, ?_, by simp [handed]⟩⟩
          · intro _
            refine ⟨.up f, ?_, ?_⟩
            · simp [phase, hf, hst, Phase.acts, Phase.next]
            · simp [phase, hf, Phase.settle]
          · intro _; simp [sends, handed]
          · simp [sends, handed]
          · simp [sends, freed, inflight]
            exact List.perm_append_comm
        · rw [if_neg hu]
          refine ⟨_, _, rfl, ⟨hi c.frames (fun _ _ => trivial) (fun _ _ _ hm => hm), fun e => absurd e hu, rfl, rfl, ?_, ?_, ?_, by simp [handed]⟩⟩
          · intro _; simp [sends, handed]
          · simp [sends, handed]
          · simp [sends, freed, inflight]
            exact List.perm_append_comm
    | connected =>
      rw [step_fd_connected hg hst]
      cases rd with
      | false => exact good_write h hf hst hg _ rfl 0 wr snd
      | true =>
        simp only [if_true]
        cases rcv with
        | again => exact good_write h hf hst hg _ rfl 0 wr snd
        | err => exact good_fail h hf hg _ rfl c.timer
        | msg m =>
          simp only
          by_cases hc : c.readCb = true
          · rw [if_pos hc]
            refine ⟨_, _, rfl, ⟨⟨h.reg, h.timer, ?_, ?_⟩, ?_, rfl, rfl, ?_, ?_, ?_, by simp [handed]⟩⟩
            · intro e; simp only at e; rw [hg] at e; cases e
            · intro g w s hm
              rcases List.mem_cons.1 hm with e | e
              · cases e; exact ⟨Nat.le_refl _, fun _ _ => hst⟩
              · exact h.rd g w s e
            · intro _
              refine ⟨.up f, ?_, ?_⟩
              · simp [phase, hf, hst, Phase.acts, Phase.next]
              · simp [phase, hf, hst, Phase.settle]
            · intro _; simp [sends, handed]
            · simp [sends, handed]
            · simp [sends, freed, inflight]
              exact List.perm_append_comm
          · rw [if_neg hc]
            exact good_write h hf hst hg _ rfl 0 wr snd
  | timeout =>
    obtain ⟨hfr, ht⟩ := ha
    obtain ⟨h1, h2⟩ := h.timer ht
    obtain ⟨f, hf⟩ := Option.isSome_iff_exists.1 h1
    have hg : c.gone = false := by
      cases e : c.gone with
      | false => rfl
      | true => have := (h.gone e).1; rw [hf] at this; cases this
    simp only [step, connectFailure]
    exact good_fail h hf hg _ rfl false
  | cbReturn rc =>
    obtain ⟨fr, fs, e, hret⟩ := ha
    have hi := inv_frames h e
    cases fr with
    | done =>
      refine ⟨_, _, step_return_done e rc, good_idle hi rfl rfl rfl rfl ?_ rfl⟩
      rw [e]; rfl
    | afterDownWrite m =>
      have hg : c.gone = false := by
        cases eg : c.gone with
        | false => rfl
        | true => exact absurd (by rw [e]; exact List.mem_cons_self) ((h.gone eg).2 m)
      refine ⟨_, _, step_return_write hg e rc, ⟨hi, ?_, rfl, rfl, ?_, ?_, ?_, by simp [handed]⟩⟩
      · intro _
        refine ⟨phase c, ?_, settle_phase c⟩
        have : (phase c).next (.free m) = some (phase c) := by cases phase c <;> rfl
        simp only [Phase.acts, this]
      · intro _; simp [sends, handed]
      · simp [sends, handed]
      · rw [e]
        simp [sends, freed, inflight]
        exact List.perm_append_comm
    | afterRead g wr snd =>
      rw [step_return_read e]
      by_cases hb : rc = -EBADF
      · unfold writePart
        rw [if_neg (fun h => h.1 hb)]
        refine ⟨_, _, rfl, good_idle hi rfl rfl rfl rfl ?_ rfl⟩
        rw [e]; rfl
      · have hcond : ¬ (c.gone = true ∨ c.fd = none ∨ c.gen ≠ g) := fun hh => hb (hret g wr snd rfl hh)
        have hg : c.gone = false := by
          cases eg : c.gone with
          | false => rfl
          | true => exact absurd (.inl eg) hcond
        have hfs : c.fd.isSome = true := by
          cases ef : c.fd with
          | none => exact absurd (.inr (.inl ef)) hcond
          | some f => rfl
        obtain ⟨f, hf⟩ := Option.isSome_iff_exists.1 hfs
        have hgen : g = c.gen := Decidable.byContradiction fun hh => hcond (.inr (.inr (fun e => hh e.symm)))
        have hst := (h.rd g wr snd (by rw [e]; exact List.mem_cons_self)).2 hgen hfs
        obtain ⟨c', a, h1, h2⟩ := good_write hi (f := f) hf hst hg (.cbReturn rc) rfl rc wr snd
        refine ⟨c', a, h1, ⟨h2.inv, h2.ph, h2.updown, h2.readCb, h2.fifo, h2.sub, ?_, h2.one⟩⟩
        have : inflight c.frames = inflight fs := by rw [e]; rfl
        rw [this]
        exact h2.msgs

theorem inv_create (u r : Bool) : Inv (create u r) := by
  refine ⟨rfl, ?_, ?_, ?_⟩
  · intro h; cases h
  · intro h; cases h
  · intro g wr snd hm; simp [create] at hm

/-- what a history does -/
structure GoodRun (c : Conn) (ops : List Op) (c' : Conn) (tr : List (List Act)) : Prop where
  run : run c ops = .ok (c', tr)
  inv : Inv c'
  ph : c.updown = true → (phase c).hist tr = some (phase c')
  updown : c'.updown = c.updown
  fifo : Op.clear ∉ ops → c.queue ++ sends ops = handed tr.flatten ++ c'.queue
  sub : (handed tr.flatten ++ c'.queue).Sublist (c.queue ++ sends ops)
  msgs : (freed tr.flatten ++ c'.queue ++ inflight c'.frames).Perm (inflight c.frames ++ c.queue ++ sends ops)
  one : ∀ a ∈ tr, (handed a).length ≤ 1

theorem handed_append (a b : List Act) : handed (a ++ b) = handed a ++ handed b := by simp [handed]
theorem freed_append (a b : List Act) : freed (a ++ b) = freed a ++ freed b := by simp [freed]
theorem sends_cons (op : Op) (ops : List Op) : sends (op :: ops) = sends [op] ++ sends ops := by cases op <;> rfl

theorem run_good {c : Conn} {ops : List Op} (h : Inv c) (ha : AdmRun c ops) : ∃ c' tr, GoodRun c ops c' tr := by
  induction ops generalizing c with
  | nil =>
    refine ⟨c, [], rfl, h, fun _ => rfl, rfl, ?_, ?_, ?_, by simp⟩
    · intro _; simp [sends, handed]
    · simp [sends, handed]
    · simp [sends, freed]
      exact List.perm_append_comm
  | cons op ops ih =>
    obtain ⟨c1, a, hs, g⟩ := step_good h ha.1
    obtain ⟨c2, tr, r⟩ := ih g.inv (ha.2 c1 a hs)
    refine ⟨c2, a :: tr, ?_, r.inv, ?_, r.updown.trans g.updown, ?_, ?_, ?_, ?_⟩
    · simp only [run, hs, bind_ok, r.run]
    · intro hu
      obtain ⟨q, h1, h2⟩ := g.ph hu
      simp only [Phase.hist, h1, h2]
      exact r.ph (g.updown.trans hu)
    · intro hn
      rw [List.mem_cons, not_or] at hn
      rw [sends_cons, ← List.append_assoc, g.fifo (fun e => hn.1 e.symm), List.append_assoc, r.fifo hn.2, List.flatten_cons, handed_append,
        List.append_assoc]
    · rw [sends_cons, List.flatten_cons, handed_append, List.append_assoc, ← List.append_assoc c.queue]
      refine (List.Sublist.append_left r.sub (handed a)).trans ?_
      rw [← List.append_assoc]
      exact List.Sublist.append_right g.sub (sends ops)
    · rw [sends_cons, List.flatten_cons, freed_append]
      have h1 := List.Perm.append_right (sends ops) g.msgs
      have h2 := List.Perm.append_left (freed a) r.msgs
      rw [List.perm_iff_count] at h1 h2 ⊢
      intro x
      have h1 := h1 x
      have h2 := h2 x
      simp only [List.count_append] at h1 h2 ⊢
      omega
    · intro b hb
      rcases List.mem_cons.1 hb with rfl | hb
      · exact g.one
      · exact r.one b hb

/-! ## C39 -/

/-- C39: in every history no operation faults, and what is observed of the connection is a life cycle as
specified by `Phase`: per socket at most one "up" and, only directly after the socket was closed by the
library on its own, at most one "down"; nothing is delivered or sent while not up; every socket is
closed exactly once. -/
theorem C39_lifecycle {ops : List Op} {readCb : Bool} (ha : AdmRun (create true readCb) ops) :
    ∃ c tr, run (create true readCb) ops = .ok (c, tr) ∧
      ∃ p, Phase.closed.hist tr = some p ∧ (p = .closed ↔ c.fd = none) ∧
        (∀ f, p = .opening f ↔ c.fd = some f ∧ c.state = .connecting) ∧
        (∀ f, p = .up f ↔ c.fd = some f ∧ c.state = .connected) := by
  obtain ⟨c, tr, r⟩ := run_good (inv_create true readCb) ha
  refine ⟨c, tr, r.run, phase c, r.ph rfl, ?_, ?_, ?_⟩
  · unfold phase
    cases c.fd with
    | none => simp
    | some f => simp only; cases c.state <;> simp
  · intro f
    unfold phase
    cases c.fd with
    | none => simp
    | some f => simp only; cases c.state <;> simp
  · intro f
    unfold phase
    cases c.fd with
    | none => simp
    | some f => simp only; cases c.state <;> simp

/-- C39: without callback there are no reports, and still no fault -/
theorem C39_no_callback {ops : List Op} {readCb : Bool} (ha : AdmRun (create false readCb) ops) :
    ∃ c tr, run (create false readCb) ops = .ok (c, tr) ∧ c.updown = false := by
  obtain ⟨c, tr, r⟩ := run_good (inv_create false readCb) ha
  exact ⟨c, tr, r.run, r.updown⟩

/-- C39: an open connection cannot be opened again -/
theorem C39_open_once {c : Conn} (hg : c.gone = false) {f : Nat} (hf : c.fd = some f) (t : Nat) (s : Except Int Nat) (r : Bool) :
    open2 c t s r = .ok (c, -EINVAL, []) := by
  simp only [open2, use_ok hg, bind_ok, hf]

/-- C39: a closed one can: the socket is created and watched, the timer runs if asked for; on an error of the socket
or of the registration the connection stays closed -/
theorem C39_open {c : Conn} (hg : c.gone = false) (hf : c.fd = none) (t : Nat) (s : Nat) (e : Int) :
    (∃ c', open2 c t (.ok s) true = .ok (c', 0, [.opened s]) ∧ c'.fd = some s ∧ c'.reg = true ∧ c'.wr = true ∧
      c'.state = .connecting ∧ (0 < t → c'.timer = true) ∧ c'.queue = c.queue) ∧
    (∃ c', open2 c t (.error e) true = .ok (c', e, []) ∧ c'.fd = none) ∧
    (∃ c', open2 c t (.ok s) false = .ok (c', -EIO, [.opened s, .closeFd s]) ∧ c'.fd = none) := by
  obtain ⟨fd, reg, wr, timer, state, queue, updown, readCb', frames, gone, gen⟩ := c
  simp only at hg hf
  subst hg hf
  refine ⟨⟨_, rfl, rfl, rfl, rfl, rfl, ?_, rfl⟩, ⟨_, rfl, rfl⟩, ⟨_, rfl, rfl⟩⟩
  intro h
  simp [h]

/-- C39: closing twice is the same as closing once, and closing makes no report -/
theorem C39_close_idempotent {c c1 : Conn} {a : List Act} (h : close c = .ok (c1, a)) :
    close c1 = .ok (c1, []) ∧ c1.fd = none ∧ c1.timer = false ∧ Act.up ∉ a ∧ Act.down ∉ a := by
  have hg : c.gone = false := by
    cases e : c.gone with
    | false => rfl
    | true => simp [close, use, e, bind_err] at h
  simp only [close, use_ok hg, bind_ok] at h
  cases hf : c.fd with
  | none =>
    rw [hf] at h
    simp only at h
    obtain ⟨h1, h2⟩ := Prod.mk.inj (Except.ok.inj h)
    subst h1; subst h2
    simp [close, use, hg, bind_ok, hf]
  | some f =>
    rw [hf] at h
    cases hr : c.reg with
    | false => rw [hr] at h; simp at h
    | true =>
      rw [hr] at h
      simp only [if_true] at h
      obtain ⟨h1, h2⟩ := Prod.mk.inj (Except.ok.inj h)
      subst h1; subst h2
      simp [close, use, hg, bind_ok]

/-- C39: the result of connecting is reported: success as "up"; an error of the socket or the connect timeout
closes the socket and reports "down"; so does losing the connection -/
theorem C39_reports {ops : List Op} {readCb : Bool} (ha : AdmRun (create true readCb) ops) :
    ∃ c tr, run (create true readCb) ops = .ok (c, tr) ∧ ∀ f, c.fd = some f →
      (c.state = .connecting → ∀ rd wr rcv snd,
        (∃ c', fdCb c rd wr false rcv snd = .ok (c', [.up]) ∧ c'.state = .connected ∧ c'.fd = some f ∧ c'.timer = false) ∧
        (∃ c', fdCb c rd wr true rcv snd = .ok (c', [.closeFd f, .down]) ∧ c'.fd = none)) ∧
      (c.timer = true → ∃ c', step c .timeout = .ok (c', [.closeFd f, .down]) ∧ c'.fd = none) ∧
      (c.state = .connected → ∀ wr err snd,
        (∃ c', fdCb c true wr err .err snd = .ok (c', [.closeFd f, .down]) ∧ c'.fd = none) ∧
        ∀ m q, c.queue = m :: q → ∃ c', fdCb c false true err .again .pipe = .ok (c', [.sendTo (some f) m, .closeFd f, .down]) ∧ c'.fd = none) := by
  obtain ⟨c, tr, r⟩ := run_good (inv_create true readCb) ha
  refine ⟨c, tr, r.run, ?_⟩
  intro f hf
  have hu : c.updown = true := r.updown
  have hr : c.reg = true := r.inv.reg.trans (by rw [hf]; rfl)
  have hg : c.gone = false := by
    cases e : c.gone with
    | false => rfl
    | true => have := (r.inv.gone e).1; rw [hf] at this; cases this
  clear r ha
  obtain ⟨fd, reg, wr, timer, state, queue, updown, readCb', frames, gone, gen⟩ := c
  simp only at hf hu hr hg ⊢
  subst hf hu hr hg
  refine ⟨?_, ?_, ?_⟩
  · intro hst rd wr rcv snd
    subst hst
    exact ⟨⟨_, rfl, rfl, rfl, rfl⟩, ⟨_, rfl, rfl⟩⟩
  · intro ht
    exact ⟨_, rfl, rfl⟩
  · intro hst wr err snd
    subst hst
    refine ⟨⟨_, rfl, rfl⟩, ?_⟩
    intro m q hq
    subst hq
    exact ⟨_, rfl, rfl⟩

/-! ## C40 -/

/-- C40: in every history without `ipa_client_conn_clear_queue` the messages handed to the socket are, in
order and each once, the first ones of those passed to `ipa_client_conn_send`; the rest is queued.  With
clearing they are still in order and each at most once.  One operation (in particular one write event)
hands over at most one message. -/
theorem C40_fifo {ops : List Op} {u r : Bool} (ha : AdmRun (create u r) ops) :
    ∃ c tr, run (create u r) ops = .ok (c, tr) ∧
      (Op.clear ∉ ops → sends ops = handed tr.flatten ++ c.queue) ∧
      (handed tr.flatten ++ c.queue).Sublist (sends ops) ∧ ∀ a ∈ tr, (handed a).length ≤ 1 := by
  obtain ⟨c, tr, g⟩ := run_good (inv_create u r) ha
  exact ⟨c, tr, g.run, g.fifo, g.sub, g.one⟩

/-- C40: each message is freed exactly once, or still queued, or the failed write of it is still running -/
theorem C40_freed_once {ops : List Op} {u r : Bool} (ha : AdmRun (create u r) ops) :
    ∃ c tr, run (create u r) ops = .ok (c, tr) ∧ (freed tr.flatten ++ c.queue ++ inflight c.frames).Perm (sends ops) := by
  obtain ⟨c, tr, g⟩ := run_good (inv_create u r) ha
  exact ⟨c, tr, g.run, g.msgs⟩

/-- a write event sends the oldest message, and disables write events if there is none -/
theorem C40_write_event {c : Conn} {f : Nat} (hg : c.gone = false) (hf : c.fd = some f) (hst : c.state = .connected) (err : Bool) (snd : Snd)
    (hs : snd ≠ .pipe) :
    (∀ m q, c.queue = m :: q → fdCb c false true err .again snd = .ok ({ c with queue := q }, [.sendTo (some f) m, .free m])) ∧
    (c.queue = [] → fdCb c false true err .again snd = .ok ({ c with wr := false }, [])) := by
  have e : fdCb c false true err .again snd = write c snd := by
    obtain ⟨fd, reg, wr, timer, state, queue, updown, readCb', frames, gone, gen⟩ := c
    simp only at hg hst
    subst hg hst
    rfl
  rw [e]
  exact ⟨fun m q hq => write_cons hg hq hf hs, fun hq => write_nil hg hq snd⟩

/-- whenever a connection gets established, its queue is empty -/
def CleanRun (c : Conn) : List Op → Prop
  | [] => True
  | op :: ops => (c.state = .connecting → (∃ rd wr rcv snd, op = .fd rd wr false rcv snd) → c.queue = []) ∧
      ∀ c' a, step c op = .ok (c', a) → CleanRun c' ops

theorem wake_close {c c1 : Conn} {a : List Act} (h : close c = .ok (c1, a)) : c1.queue = c.queue ∧ c1.wr = c.wr := by
  obtain ⟨fd, reg, wr, timer, state, queue, updown, readCb', frames, gone, gen⟩ := c
  cases gone with
  | true => cases h
  | false =>
    cases fd with
    | none =>
      obtain ⟨h1, _⟩ := Prod.mk.inj (Except.ok.inj h)
      subst h1; exact ⟨rfl, rfl⟩
    | some f =>
      cases reg with
      | false => cases h
      | true =>
        obtain ⟨h1, _⟩ := Prod.mk.inj (Except.ok.inj h)
        subst h1; exact ⟨rfl, rfl⟩

theorem callDown_q (c : Conn) (k : Frame) : (callDown c k).1.queue = c.queue ∧ (callDown c k).1.wr = c.wr := by
  unfold callDown
  split <;> exact ⟨rfl, rfl⟩

theorem wake_failure {c c1 : Conn} {a : List Act} (h : connectFailure c = .ok (c1, a)) :
    c1.queue = c.queue ∧ c1.wr = c.wr := by
  unfold connectFailure at h
  cases hc : close c with
  | error e => rw [hc, bind_err] at h; cases h
  | ok p =>
    rw [hc, bind_ok] at h
    obtain ⟨h1, _⟩ := Prod.mk.inj (Except.ok.inj h)
    obtain ⟨w1, w2⟩ := wake_close hc
    obtain ⟨d1, d2⟩ := callDown_q p.1 .done
    rw [← h1]
    exact ⟨d1.trans w1, d2.trans w2⟩

theorem wake_write {c c1 : Conn} {rc : Int} {wr : Bool} {snd : Snd} {a : List Act} (hw : c.queue ≠ [] → c.wr = true)
    (h : writePart c rc wr snd = .ok (c1, a)) : c1.queue ≠ [] → c1.wr = true := by
  unfold writePart at h
  split at h
  · obtain ⟨fd, reg, wr', timer, state, queue, updown, readCb', frames, gone, gen⟩ := c
    cases gone with
    | true => cases h
    | false =>
      cases queue with
      | nil =>
        obtain ⟨h1, _⟩ := Prod.mk.inj (Except.ok.inj h)
        subst h1; intro h; exact absurd rfl h
      | cons m q =>
        have hwt : wr' = true := hw (by simp)
        subst hwt
        cases snd with
        | count n =>
          obtain ⟨h1, _⟩ := Prod.mk.inj (Except.ok.inj h)
          subst h1; intro _; rfl
        | other =>
          obtain ⟨h1, _⟩ := Prod.mk.inj (Except.ok.inj h)
          subst h1; intro _; rfl
        | pipe =>
          cases fd with
          | none =>
            obtain ⟨h1, _⟩ := Prod.mk.inj (Except.ok.inj h)
            subst h1; intro _; rfl
          | some f =>
            cases reg with
            | false => cases h
            | true =>
              cases updown with
              | false =>
                obtain ⟨h1, _⟩ := Prod.mk.inj (Except.ok.inj h)
                subst h1; intro _; rfl
              | true =>
                obtain ⟨h1, _⟩ := Prod.mk.inj (Except.ok.inj h)
                subst h1; intro _; rfl
  · obtain ⟨h1, _⟩ := Prod.mk.inj (Except.ok.inj h)
    subst h1; exact hw

/-- C40, partially: in every history in which messages are only sent while the connection is established (more exactly:
the queue is empty whenever it gets established), write events are enabled while a message is queued.  Missing:
messages queued before, see `C40_wake_violated`. -/
theorem C40_wake_partial {ops : List Op} {u r : Bool} (ha : AdmRun (create u r) ops) (hc : CleanRun (create u r) ops) :
    ∃ c tr, run (create u r) ops = .ok (c, tr) ∧ (c.queue ≠ [] → c.wr = true) := by
  have key : ∀ (ops : List Op) (c : Conn), Inv c → AdmRun c ops → CleanRun c ops → (c.queue ≠ [] → c.wr = true) →
      ∃ c' tr, run c ops = .ok (c', tr) ∧ (c'.queue ≠ [] → c'.wr = true) := by
    intro ops
    induction ops with
    | nil => intro c _ _ _ hw; exact ⟨c, [], rfl, hw⟩
    | cons op ops ih =>
      intro c hi ha hc hw
      obtain ⟨c1, a, hs, g⟩ := step_good hi ha.1
      have hw1 : c1.queue ≠ [] → c1.wr = true := by
        have inj : ∀ {c2 : Conn} {a2 : List Act}, step c op = .ok (c2, a2) → c1 = c2 := by
          intro c2 a2 h2
          exact (Prod.mk.inj (Except.ok.inj (hs.symm.trans h2))).1
        cases op with
        | open2 t s r =>
          have hg : c.gone = false := ha.1
          cases hf : c.fd with
          | some f => rw [inj (step_open_busy hg hf t s r)]; exact hw
          | none =>
            cases s with
            | error e => rw [inj (step_open_err hg hf t e r)]; exact hw
            | ok f =>
              cases r with
              | true => rw [inj (step_open_ok hg hf t f)]; intro _; rfl
              | false => rw [inj (step_open_noreg hg hf t f)]; intro _; rfl
        | close =>
          obtain ⟨w1, w2⟩ := wake_close hs
          rw [w1, w2]; exact hw
        | send m => rw [inj (step_send ha.1 m)]; intro _; rfl
        | clear => rw [inj (step_clear ha.1)]; intro h; exact absurd rfl h
        | destroy => rw [inj (step_destroy ha.1.1)]; exact hw
        | timeout =>
          obtain ⟨w1, w2⟩ := wake_failure (c := { c with timer := false }) hs
          rw [w1, w2]; exact hw
        | cbReturn rc =>
          obtain ⟨f, fs, hfr, _⟩ := ha.1
          cases f with
          | done => rw [inj (step_return_done hfr rc)]; exact hw
          | afterDownWrite m =>
            cases hg : c.gone with
            | true => exact absurd (by rw [hfr]; exact List.mem_cons_self) ((hi.gone hg).2 m)
            | false => rw [inj (step_return_write hg hfr rc)]; exact hw
          | afterRead g wr snd =>
            rw [step_return_read hfr] at hs
            exact wake_write (c := { c with frames := fs }) hw hs
        | fd rd wr err rcv snd =>
          have hfs : c.fd.isSome = true := by rw [← hi.reg]; exact ha.1.2.1
          have hg : c.gone = false := by
            cases e : c.gone with
            | false => rfl
            | true => rw [(hi.gone e).1] at hfs; cases hfs
          cases hst : c.state with
          | connecting =>
            rw [step_fd_connecting hg hst] at hs
            cases err with
            | true =>
              rw [if_pos rfl] at hs
              obtain ⟨w1, w2⟩ := wake_failure hs
              rw [w1, w2]; exact hw
            | false =>
              have hq := hc.1 hst ⟨rd, wr, rcv, snd, rfl⟩
              rw [if_neg (by decide)] at hs
              by_cases hu : c.updown = true
              · rw [if_pos hu] at hs
                obtain ⟨h1, _⟩ := Prod.mk.inj (Except.ok.inj hs)
                subst h1; intro h; exact absurd hq h
              · rw [if_neg hu] at hs
                obtain ⟨h1, _⟩ := Prod.mk.inj (Except.ok.inj hs)
                subst h1; intro h; exact absurd hq h
          | connected =>
            rw [step_fd_connected hg hst] at hs
            cases rd with
            | false => exact wake_write hw hs
            | true =>
              rw [if_pos rfl] at hs
              cases rcv with
              | again => exact wake_write hw hs
              | err =>
                obtain ⟨w1, w2⟩ := wake_failure hs
                rw [w1, w2]; exact hw
              | msg m =>
                simp only at hs
                by_cases hcb : c.readCb = true
                · rw [if_pos hcb] at hs
                  obtain ⟨h1, _⟩ := Prod.mk.inj (Except.ok.inj hs)
                  subst h1; exact hw
                · rw [if_neg hcb] at hs
                  exact wake_write hw hs
      obtain ⟨c2, tr, h1, h2⟩ := ih c1 g.inv (ha.2 c1 a hs) (hc.2 c1 a hs) hw1
      exact ⟨c2, a :: tr, by simp only [run, hs, bind_ok, h1], h2⟩
  exact key ops _ (inv_create u r) ha hc (by intro h; exact absurd rfl h)

/-! ### examples and defects -/

def admB (c : Conn) : Op → Bool
  | .open2 _ _ _ => !c.gone
  | .close => !c.gone
  | .send _ => !c.gone
  | .clear => !c.gone
  | .destroy => !c.gone && c.fd.isNone && (inflight c.frames).isEmpty
  | .fd _ wr _ _ _ => c.frames.isEmpty && c.reg && (!wr || c.wr)
  | .timeout => c.frames.isEmpty && c.timer
  | .cbReturn rc => match c.frames with
    | [] => false
    | .afterRead g _ _ :: _ => !(c.gone || c.fd.isNone || c.gen != g) || rc == -EBADF
    | _ => true

theorem admB_ok {c : Conn} {op : Op} (h : admB c op = true) : Adm c op := by
  cases op with
  | open2 | close | send | clear => simpa [admB, Adm] using h
  | destroy =>
    simp only [admB, Bool.and_eq_true, Option.isNone_iff_eq_none, List.isEmpty_iff, Bool.not_eq_true'] at h
    refine ⟨h.1.1, h.1.2, ?_⟩
    intro m hm
    have : m ∈ inflight c.frames := by
      unfold inflight
      rw [List.mem_filterMap]
      exact ⟨_, hm, rfl⟩
    rw [h.2] at this
    cases this
  | fd rd wr err rcv snd =>
    simp only [admB, Bool.and_eq_true, List.isEmpty_iff, Bool.or_eq_true, Bool.not_eq_true'] at h
    refine ⟨h.1.1, h.1.2, ?_⟩
    intro hw
    rcases h.2 with h | h
    · rw [hw] at h; cases h
    · exact h
  | timeout =>
    simp only [admB, Bool.and_eq_true, List.isEmpty_iff] at h
    exact h
  | cbReturn rc =>
    cases hf : c.frames with
    | nil => simp [admB, hf] at h
    | cons f fs =>
      refine ⟨f, fs, hf, ?_⟩
      intro g wr snd e hh
      subst e
      simp only [admB, hf, Bool.or_eq_true, Bool.not_eq_true', Bool.or_eq_false_iff, beq_iff_eq, bne_eq_false_iff_eq] at h
      rcases h with h | h
      · rcases hh with hh | hh | hh
        · rw [h.1.1] at hh; cases hh
        · rw [hh] at h; simp at h
        · exact absurd h.2 hh
      · exact h

def admRunB (c : Conn) : List Op → Bool
  | [] => true
  | op :: ops => admB c op && match step c op with | .ok (c', _) => admRunB c' ops | .error _ => false

theorem admRunB_ok {c : Conn} {ops : List Op} (h : admRunB c ops = true) : AdmRun c ops := by
  induction ops generalizing c with
  | nil => trivial
  | cons op ops ih =>
    simp only [admRunB, Bool.and_eq_true] at h
    refine ⟨admB_ok h.1, ?_⟩
    intro c' a hs
    rw [hs] at h
    exact ih h.2

/-- open, connect, two messages, one received, loss of the connection on the second write; in the down callback
the application opens the connection again -/
def life : List Op :=
  [.open2 30 (.ok 5) true, .fd false true false .again .other, .cbReturn 0, .send ⟨1, [1]⟩, .send ⟨2, [2]⟩,
   .fd true true false (.msg ⟨9, [9]⟩) (.count 1), .send ⟨3, [3]⟩, .cbReturn 0, .fd false true false .again .pipe, .open2 30 (.ok 6) true,
   .cbReturn 0, .timeout, .cbReturn 0, .close, .destroy]

theorem life_adm : AdmRun (create true true) life := admRunB_ok (by decide +kernel)

example : (match run (create true true) life with
    | .ok (c, tr) => c.fd == none && tr.flatten == [.opened 5, .up, .deliver ⟨9, [9]⟩, .sendTo (some 5) ⟨1, [1]⟩, .free ⟨1, [1]⟩,
        .sendTo (some 5) ⟨2, [2]⟩, .closeFd 5, .down, .opened 6, .free ⟨2, [2]⟩, .closeFd 6, .down] && c.queue == [⟨3, [3]⟩]
    | _ => false) = true := by decide +kernel

/-- C40 is false: a message queued while the connection is being established stays queued when it is: write
events are disabled -/
theorem C40_wake_violated : ∃ ops c tr, AdmRun (create true true) ops ∧ run (create true true) ops = .ok (c, tr) ∧
    c.state = .connected ∧ c.fd = some 5 ∧ c.queue = [⟨1, [1]⟩] ∧ c.wr = false ∧ c.frames = [] := by
  refine ⟨[.open2 30 (.ok 5) true, .send ⟨1, [1]⟩, .fd false true false .again .other, .cbReturn 0], _, _,
    admRunB_ok (by decide +kernel), rfl, rfl, rfl, rfl, rfl, rfl⟩

def cleanB : Conn → List Op → Bool
  | _, [] => true
  | c, op :: ops => (match op with | .fd _ _ false _ _ => decide (c.state = .connected) || c.queue.isEmpty | _ => true) &&
      (match step c op with | .ok (c', _) => cleanB c' ops | .error _ => true)

theorem cleanB_ok {c : Conn} {ops : List Op} (h : cleanB c ops = true) : CleanRun c ops := by
  induction ops generalizing c with
  | nil => trivial
  | cons op ops ih =>
    simp only [cleanB, Bool.and_eq_true] at h
    refine ⟨?_, ?_⟩
    · rintro hst ⟨rd, wr, rcv, snd, rfl⟩
      have h1 := h.1
      simp only [hst, Bool.or_eq_true, decide_eq_true_eq, List.isEmpty_iff] at h1
      rcases h1 with h1 | h1
      · cases h1
      · exact h1
    · intro c' a hs
      have h2 := h.2
      rw [hs] at h2
      exact ih h2

/-- a run meeting the hypotheses of `C40_wake_partial`, with a message queued at the end -/
example : AdmRun (create true true) (life.take 8) ∧ CleanRun (create true true) (life.take 8) ∧
    (match run (create true true) (life.take 8) with | .ok (c, _) => c.queue.length == 2 | _ => false) = true :=
  ⟨admRunB_ok (by decide +kernel), cleanB_ok (by decide +kernel), by decide +kernel⟩

/-- a message is lost while the connection stays up if `send()` fails otherwise (e.g. EAGAIN with a full socket
buffer), and cut if it is only partly accepted: in both cases it is freed and the connection is as before -/
theorem C40_lossless_violated {c : Conn} {f : Nat} (hg : c.gone = false) (hf : c.fd = some f) (hst : c.state = .connected) {m : Msg} {q : List Msg}
    (hq : c.queue = m :: q) (n : Nat) :
    fdCb c false true false .again .other = .ok ({ c with queue := q }, [.sendTo (some f) m, .free m]) ∧
    fdCb c false true false .again (.count n) = .ok ({ c with queue := q }, [.sendTo (some f) m, .free m]) :=
  ⟨(C40_write_event hg hf hst false .other (by simp)).1 m q hq, (C40_write_event hg hf hst false (.count n) (by simp)).1 m q hq⟩

/-- the messages queued when a connection is lost are sent on the next one, unless the application clears the
queue -/
theorem stale_queue_sent : ∃ ops c tr, AdmRun (create true true) ops ∧ run (create true true) ops = .ok (c, tr) ∧
    tr.flatten = [.opened 5, .up, .closeFd 5, .down, .opened 6, .up, .sendTo (some 6) ⟨1, [1]⟩, .free ⟨1, [1]⟩] := by
  refine ⟨[.open2 30 (.ok 5) true, .fd false true false .again .other, .cbReturn 0, .send ⟨1, [1]⟩, .fd true false false .err .other,
    .open2 30 (.ok 6) true, .cbReturn 0, .fd false true false .again .other, .send ⟨2, [2]⟩, .cbReturn 0, .fd false true false .again (.count 1)], _, _,
    admRunB_ok (by decide +kernel), rfl, rfl⟩

/-- destroying the connection in the down callback of a failed write is a use after free: the log message
behind the callback uses the object -/
theorem destroy_in_down_violated : ∃ ops c tr, AdmRun (create true true) ops ∧ run (create true true) ops = .ok (c, tr) ∧
    c.fd = none ∧ ∃ c', step c .destroy = .ok (c', []) ∧ ∀ rc, step c' (.cbReturn rc) = .error .badptr := by
  refine ⟨[.open2 30 (.ok 5) true, .fd false true false .again .other, .cbReturn 0, .send ⟨1, [1]⟩, .fd false true false .again .pipe], _, _,
    admRunB_ok (by decide +kernel), rfl, rfl, _, rfl, fun rc => rfl⟩

/-- in the down callback of a failed connect or read it is fine -/
example : AdmRun (create true true) [.open2 30 (.ok 5) true, .timeout, .destroy, .cbReturn 0] := admRunB_ok (by decide +kernel)

/-- destroying an open connection leaves its descriptor registered: the next event uses the freed object -/
theorem destroy_open_violated : ∃ ops c tr, AdmRun (create true true) ops ∧ run (create true true) ops = .ok (c, tr) ∧
    ∃ c', step c .destroy = .ok (c', []) ∧ c'.reg = true ∧ ∀ rd wr err rcv snd, step c' (.fd rd wr err rcv snd) = .error .badptr := by
  refine ⟨[.open2 30 (.ok 5) true], _, _, admRunB_ok (by decide +kernel), rfl, _, rfl, rfl, fun rd wr err rcv snd => rfl⟩

/-- a received message is never freed if there is no read callback (it is dropped without `msgb_free`) -/
theorem no_read_cb_leaks_violated {c : Conn} (hg : c.gone = false) (hst : c.state = .connected) (hr : c.readCb = false) (m : Msg) (snd : Snd) :
    fdCb c true false false (.msg m) snd = .ok (c, []) := by
  simp only [fdCb, hst, fdConnected, use_ok hg, bind_ok, if_true, hr, writePart]
  rfl

end Verif.Ipa.Cli
