import Verif.Proof.DahdiRun
/-!
# Properties of the DAHDI driver (C136-C142)
-/
set_option maxRecDepth 10000
namespace Verif.Dahdi

theorem step_port {E : Env} {w w' : W} {op : Op} {a : Acts} (h : step E w op = .ok (w', a)) (l : Nat) :
    w'.port l = portOf l (w.port l) [op] ∧ w'.upd = w.upd + updates [op] := by
  have on : ∀ {l' t' : Nat} {r : M (Slot × List Act)}, onSlot w l' t' r = .ok (w', a) → w'.port = w.port ∧ w'.upd = w.upd := by
    intro l' t' r g; obtain ⟨s, b, _, rfl, _⟩ := onSlot_inv g; exact ⟨rfl, rfl⟩
  have ts : ∀ (n l base : Nat) (k t : Nat) {w w' : W} {a : Acts} {rc : Int}, updTs E n l base k t w = .ok (w', a, rc) → w'.port = w.port ∧ w'.upd = w.upd := by
    intro n l base k
    induction k with
    | zero => intro t w w' a rc g; cases g; exact ⟨rfl, rfl⟩
    | succ k ih =>
      intro t w w' a rc g
      simp only [updTs] at g
      split at g
      · cases g
      · split at g
        · cases g; exact ⟨rfl, rfl⟩
        · simp only [bind, Except.bind] at g
          split at g
          · cases g
          · rename_i v hv
            obtain ⟨w2, b, rc2⟩ := v
            cases g
            have := ih _ hv
            exact this
  cases op with
  | port l' p =>
    cases h
    refine ⟨?_, rfl⟩
    show (if l = l' then p else w.port l) = if l' = l then p else w.port l
    by_cases g : l = l'
    · rw [if_pos g, if_pos g.symm]
    · rw [if_neg g, if_neg (fun e => g e.symm)]
  | config l' t ty => have := on h; exact ⟨by rw [this.1]; rfl, by rw [this.2]; rfl⟩
  | update l' =>
    simp only [step] at h
    cases hl : lineUpdate E w l' with
    | error e => rw [hl] at h; cases h
    | ok p =>
      obtain ⟨w2, b, rc⟩ := p
      rw [hl] at h
      cases h
      have e1 : (rereadCfg E w).port = w.port ∧ (rereadCfg E w).upd = w.upd + 1 := by
        unfold rereadCfg; cases E.ctl w.upd <;> exact ⟨rfl, rfl⟩
      unfold lineUpdate at hl
      simp only at hl
      split at hl
      · cases hl
      · split at hl
        · cases hl; exact ⟨by rw [e1.1]; rfl, e1.2⟩
        · have := ts _ _ _ _ _ hl
          exact ⟨by rw [this.1, e1.1]; rfl, by rw [this.2, e1.2]; rfl⟩
  | event l' t e =>
    simp only [step] at h
    split at h
    · split at h
      · cases h
      · have := on h; exact ⟨by rw [this.1]; rfl, by rw [this.2]; rfl⟩
    · cases h; exact ⟨rfl, rfl⟩
  | send l' t m => have := on h; exact ⟨by rw [this.1]; rfl, by rw [this.2]; rfl⟩
  | timeout l' t =>
    simp only [step] at h
    split at h
    · split at h
      · cases h
      · have := on h; exact ⟨by rw [this.1]; rfl, by rw [this.2]; rfl⟩
    · cases h; exact ⟨rfl, rfl⟩
  | lapdTx l' t d n pad x =>
    simp only [step] at h
    split at h
    · split at h
      · cases h
      · have := on h; exact ⟨by rw [this.1]; rfl, by rw [this.2]; rfl⟩
    · cases h; exact ⟨rfl, rfl⟩
  | release l' => cases h; exact ⟨rfl, rfl⟩

theorem portOf_cons (l p : Nat) (op : Op) (ops : List Op) : portOf l p (op :: ops) = portOf l (portOf l p [op]) ops := by
  cases op <;> simp only [portOf]
  split <;> rfl

theorem updates_cons (op : Op) (ops : List Op) : updates (op :: ops) = updates [op] + updates ops := by
  cases op <;> simp only [updates] <;> omega

theorem run_port {E : Env} (l : Nat) : ∀ (ops : List Op) {w w' : W} {a : Acts}, run E w ops = .ok (w', a) → w'.port l = portOf l (w.port l) ops ∧ w'.upd = w.upd + updates ops := by
  intro ops
  induction ops with
  | nil => intro w w' a h; cases h; exact ⟨rfl, rfl⟩
  | cons op ops ih =>
    intro w w' a h
    obtain ⟨w1, a1, a2, e1, e2, rfl⟩ := run_cons h
    obtain ⟨p1, u1⟩ := step_port e1 l
    obtain ⟨p2, u2⟩ := ih e2
    refine ⟨by rw [p2, p1, ← portOf_cons], by have := updates_cons op ops; omega⟩

/-- what is looked at in a run that is evaluated: the actions, the time slot 1 of line 0 -/
def look (r : M (W × Acts)) : Except Fault (Acts × Slot) := r.map (fun p => (p.2, p.1.s 0 1))

theorem look_ok {r : M (W × Acts)} {a : Acts} {s : Slot} (h : look r = .ok (a, s)) : ∃ w, r = .ok (w, a) ∧ w.s 0 1 = s := by
  cases r with
  | error e => cases h
  | ok p => obtain ⟨w, b⟩ := p; cases h; exact ⟨w, rfl, rfl⟩

theorem look_error {r : M (W × Acts)} {f : Fault} (h : look r = .error f) : r = .error f := by
  cases r with
  | error e => cases h; rfl
  | ok p => cases h

/-! ### C136 -/

/-- C136: whenever a line update opens a device, its channel is that of the time slot on the span of the line's port: the channels are numbered from 1, span
after span, by what the kernel last said of the spans.  Missing: ports above 127 (`port_violated`), spans with more than 32 channels (`span_violated`). -/
theorem C136_channel_number_partial {E : Env} (hE : NotStdin E) (hS : SmallSpans E) {ops : List Op} {w w' : W} {a b : Acts} (ho : Sane ops) (h : run E init ops = .ok (w, a))
    (l : Nat) (hu : step E w (.update l) = .ok (w', b)) (x t c : Nat) (f : Int) (hm : ((x, t), Act.opened c f) ∈ b) :
    x = l ∧ ∃ tot num, known E (updates ops + 1) = some tot ∧ tot (portOf l 0 ops + 1) = some num ∧ 1 ≤ t ∧ t ≤ num ∧ c = chanNr tot (portOf l 0 ops) t := by
  have r := (run_rinv hE hS ops (init_rinv E) ho h).1
  obtain ⟨p, u⟩ := run_port l ops h
  obtain ⟨w2, b2, rc, e, _, _, _, _, _, _, _, ch, _, _⟩ := lineUpdate_ok hE hS r.inv r.cache (r.port l)
  simp only [step, e, Except.map] at hu
  cases hu
  have := ch x t c f hm
  rw [p, u] at this
  simp only [init, Nat.zero_add] at this
  exact this

theorem chansOf_mono (tot : Nat → Option Nat) {p q : Nat} (h : p ≤ q) : chansOf tot p ≤ chansOf tot q := by
  induction q with
  | zero => have : p = 0 := by omega
            subst this; exact Nat.le_refl _
  | succ q ih =>
    by_cases g : p = q + 1
    · subst g; exact Nat.le_refl _
    · have := ih (by omega); simp only [chansOf]; omega

/-- C136: two time slots never have the same channel -/
theorem C136_channel_number_unique (tot : Nat → Option Nat) {p q t u n m : Nat} (hp : tot (p + 1) = some n) (hq : tot (q + 1) = some m) (ht : 1 ≤ t ∧ t ≤ n) (hu : 1 ≤ u ∧ u ≤ m)
    (h : chanNr tot p t = chanNr tot q u) : p = q ∧ t = u := by
  unfold chanNr at h
  have key : ∀ {p q t u n : Nat}, tot (p + 1) = some n → t ≤ n → 1 ≤ u → p < q → chansOf tot p + t < chansOf tot q + u := by
    intro p q t u n hp ht hu hlt
    have := chansOf_mono tot (show p + 1 ≤ q by omega)
    simp only [chansOf, hp, Option.getD_some] at this
    omega
  rcases Nat.lt_trichotomy p q with g | g | g
  · have := key hp ht.2 hu.1 g; omega
  · subst g; exact ⟨rfl, by omega⟩
  · have := key hq hu.2 ht.1 g; omega

/-- a kernel with two spans of 4 channels (fewer than real ones, to keep the examples small); the descriptor of time slot `t` is `t + 100` -/
def card : Env := ⟨fun _ => some (fun p => if p = 1 ∨ p = 2 then some 4 else none), fun _ t => ⟨some (t + 100), true, true⟩⟩

example : look (run card init [.port 0 1, .config 0 1 .sign, .config 0 3 .trau, .update 0]) =
    .ok ([((0, 1), .opened 5 101), ((0, 3), .opened 7 103)], ⟨.sign, 101, true, false, true, false, []⟩) := by decide +kernel

theorem card_ok : NotStdin card ∧ SmallSpans card := by
  refine ⟨?_, ?_⟩
  · intro n t f h; simp only [card, Option.some.injEq] at h; omega
  · intro n tot h p c g
    simp only [card, Option.some.injEq] at h
    subst h
    simp only at g
    split at g
    · cases g; decide
    · cases g

/-- C136: for the port 128 the array of the spans is read behind its end (dahdi.c:636) -/
theorem C136_port_violated : NotStdin card ∧ SmallSpans card ∧ run card init [.port 0 128, .update 0] = .error .oob := ⟨card_ok.1, card_ok.2, look_error (by decide +kernel)⟩

/-- C136: for a span with more than 32 channels, the array of the time slots is accessed behind its end (dahdi.c:645-650) -/
theorem C136_span_violated : ∃ E : Env, NotStdin E ∧ run E init [.update 0] = .error .oob := by
  refine ⟨⟨fun _ => some (fun _ => some 33), fun _ t => ⟨some 5, true, true⟩⟩, ?_, look_error (by decide +kernel)⟩
  intro n t f h; simp only [Option.some.injEq] at h; omega

/-! ### C137 -/

/-- C137: in every history, a time slot is opened only if it is not open, and only its open descriptor is read, written and closed; a descriptor the select
loop watches is open.  Missing: the descriptor 0 (`stdin_violated`), freed lines (`release_violated`), ports above 127 and spans with more than 32 channels. -/
theorem C137_descriptors_partial {E : Env} (hE : NotStdin E) (hS : SmallSpans E) {ops : List Op} {w : W} {a : Acts} (ho : Sane ops) (h : run E init ops = .ok (w, a)) (l t : Nat) :
    Balanced 0 (ofSlot l t a) (openFd (w.s l t)) ∧ ((w.s l t).reg = true → openFd (w.s l t) = (w.s l t).fd ∧ 0 < (w.s l t).fd) ∧
      ((w.s l t).lapd = true → 0 < (w.s l t).fd) := by
  obtain ⟨r, b⟩ := run_rinv hE hS ops (init_rinv E) ho h
  exact ⟨b l t, fun g => ⟨openFd_pos ((r.inv l t).reg g), (r.inv l t).reg g⟩, (r.inv l t).lapd⟩

example : look (run card init [.config 0 1 .raw, .update 0, .send 0 1 [7], .event 0 1 ⟨false, false, true, none, [], 1, (0, 0), none, none, none⟩, .config 0 1 .none, .update 0]) =
    .ok ([((0, 1), .opened 1 101), ((0, 1), .write 101 [7] 1), ((0, 1), .free [7]), ((0, 1), .closed 101)], ⟨.none, 0, false, true, false, false, []⟩) := by decide +kernel

/-- C137: the descriptor 0 is lost: it is opened twice and not closed (dahdi.c:669, 674) -/
theorem C137_stdin_violated : ∃ (E : Env) (w : W) (a : Acts), SmallSpans E ∧ run E init [.config 0 1 .raw, .update 0, .config 0 1 .none, .update 0, .config 0 1 .raw, .update 0] = .ok (w, a) ∧
    ofSlot 0 1 a = [.opened 1 0, .opened 1 0] := by
  obtain ⟨w, h, _⟩ := look_ok (r := run ⟨fun _ => some (fun _ => some 4), fun _ t => ⟨some 0, true, true⟩⟩ init [.config 0 1 .raw, .update 0, .config 0 1 .none, .update 0, .config 0 1 .raw, .update 0])
    (a := [((0, 1), .opened 1 0), ((0, 1), .opened 1 0)]) (s := ⟨.raw, 0, true, false, false, false, []⟩) (by decide +kernel)
  refine ⟨⟨fun _ => some (fun _ => some 4), fun _ t => ⟨some 0, true, true⟩⟩, w, _, ?_, h, rfl⟩
  intro n tot h p c g
  simp only [Option.some.injEq] at h
  subst h
  cases g; decide

/-- C137: the driver is not told that a line is freed: its descriptors stay in the select loop, which uses the freed line -/
theorem C137_release_violated : NotStdin card ∧ SmallSpans card ∧
    run card init [.config 0 1 .raw, .update 0, .release 0, .event 0 1 ⟨false, true, false, none, [], 0, (0, 0), none, none, none⟩] = .error .badptr := ⟨card_ok.1, card_ok.2, look_error (by decide +kernel)⟩

/-- C137: a failed `open()` is not repeated, also if it would succeed now, until the time slot was without use (dahdi.c:674, 692, 709) -/
theorem C137_retry_violated : ∃ (E : Env) (w : W) (a : Acts), NotStdin E ∧ SmallSpans E ∧ (∀ n, 1 ≤ n → E.ans n 1 = ⟨some 5, true, true⟩) ∧
    run E init [.config 0 1 .raw, .update 0, .update 0, .config 0 1 .hdlc, .update 0] = .ok (w, a) ∧ a = [] ∧ (w.s 0 1).fd = -EIO := by
  obtain ⟨w, h, h2⟩ := look_ok (r := run ⟨fun _ => some (fun _ => some 4), fun n t => if n = 0 then ⟨none, true, true⟩ else ⟨some 5, true, true⟩⟩ init
    [.config 0 1 .raw, .update 0, .update 0, .config 0 1 .hdlc, .update 0]) (a := []) (s := ⟨.hdlc, -EIO, false, false, false, false, []⟩) (by decide +kernel)
  refine ⟨⟨fun _ => some (fun _ => some 4), fun n t => if n = 0 then ⟨none, true, true⟩ else ⟨some 5, true, true⟩⟩, w, _, ?_, ?_, ?_, h, rfl, by rw [h2]⟩
  · intro n t f h
    simp only at h
    split at h
    · cases h
    · cases h; decide
  · intro n tot h p c g
    simp only [Option.some.injEq] at h
    subst h
    cases g; decide
  · intro n hn
    simp only []
    rw [if_neg (by omega)]

/-! ### C138 -/

/-- C138: after a successful line update each time slot of the span is as configured: without a use it is closed, else it is open and watched; signalling time
slots have a LAPD instance, others have none.  Missing: an HDLC time slot keeps the LAPD instance of a former use for signalling (`hdlc_violated`). -/
theorem C138_as_configured_partial {E : Env} (hE : NotStdin E) (hS : SmallSpans E) {ops : List Op} {w w' : W} {a b : Acts} (ho : Sane ops) (h : run E init ops = .ok (w, a))
    (l : Nat) (hu : lineUpdate E w l = .ok (w', b, 0)) :
    ∃ tot num, known E (updates ops + 1) = some tot ∧ tot (portOf l 0 ops + 1) = some num ∧
      ∀ t, 1 ≤ t → t ≤ num → (w'.s l t).ty = (w.s l t).ty ∧ ((w.s l t).ty = .hdlc → (w.s l t).lapd = false) → AsConfigured (w'.s l t) := by
  have r := (run_rinv hE hS ops (init_rinv E) ho h).1
  obtain ⟨p, u⟩ := run_port l ops h
  obtain ⟨w2, b2, rc, e, _, _, _, _, _, _, _, _, ok, _⟩ := lineUpdate_ok hE hS r.inv r.cache (r.port l)
  rw [e] at hu
  cases hu
  obtain ⟨tot, num, k1, k2, k3⟩ := ok rfl
  rw [p] at k2
  rw [u] at k1
  simp only [init, Nat.zero_add] at k1 k2
  refine ⟨tot, num, k1, k2, ?_⟩
  intro t h1 h2 hh
  obtain ⟨hty, hh⟩ := hh
  obtain ⟨chan, c, v⟩ := k3 t h1 h2
  obtain ⟨o1, o2, o3, o4, o5⟩ := v.ok rfl
  unfold AsConfigured
  cases ht : (w'.s l t).ty with
  | none => exact o1 ht
  | sign => have := o2 (by rw [ht]; intro e; cases e); exact ⟨this.1, this.2.1, o3 ht⟩
  | hdlc => have := o2 (by rw [ht]; intro e; cases e); exact ⟨this.1, this.2.1, by rw [o4 ht]; exact hh (by rw [← hty]; exact ht)⟩
  | trau => have := o2 (by rw [ht]; intro e; cases e); exact ⟨this.1, this.2.1, o5 (.inl ht)⟩
  | i460 => have := o2 (by rw [ht]; intro e; cases e); exact ⟨this.1, this.2.1, o5 (.inr (.inl ht))⟩
  | raw => have := o2 (by rw [ht]; intro e; cases e); exact ⟨this.1, this.2.1, o5 (.inr (.inr ht))⟩

/-- C138: a line update does not change the type of a time slot, its queue or its timer, and no other line -/
theorem C138_update_frame {E : Env} (hE : NotStdin E) (hS : SmallSpans E) {ops : List Op} {w w' : W} {a b : Acts} (ho : Sane ops) (h : run E init ops = .ok (w, a))
    (l : Nat) (hu : step E w (.update l) = .ok (w', b)) :
    (∀ x t, (w'.s x t).ty = (w.s x t).ty ∧ (w'.s x t).q = (w.s x t).q ∧ (w'.s x t).timer = (w.s x t).timer) ∧ (∀ x t, x ≠ l → w'.s x t = w.s x t) ∧ (∀ x, w'.port x = w.port x) := by
  have r := (run_rinv hE hS ops (init_rinv E) ho h).1
  obtain ⟨w2, b2, rc, e, _, _, _, i4, _, U, o, _, _, _⟩ := lineUpdate_ok hE hS r.inv r.cache (r.port l)
  simp only [step, e, Except.map] at hu
  cases hu
  exact ⟨fun x t => ⟨U.ty x t, U.q x t, U.timer x t⟩, o, fun x => by rw [i4]⟩

/-- C138: when all requests succeed, no history in which a line is updated after it was configured makes the driver fail, on cards with up to 32 channels per span -/
theorem C138_safe_partial {E : Env} (hE : NotStdin E) (hS : SmallSpans E) (hW : Works E) {c : Nat} (hC : Cards E c) (hc : c ≤ 32) {ops : List Op}
    (hp : ∀ l p, Op.port l p ∈ ops → p < 127) (ho : Proper (fun _ => false) (fun _ _ => .none) ops) : ∃ w a, run E init ops = .ok (w, a) :=
  run_safe hE hS hW hC hc ops (init_rinv E) (fun _ => by show 0 < 127; decide)
    ⟨fun _ _ => rfl, fun _ _ => by show (0 : Int) ≤ 0; decide, (by intro l t e; cases e), (by intro l t _ e; cases e)⟩ hp ho

/-- a kernel with 127 spans of 31 channels -/
def cards : Env := ⟨fun _ => some (fun p => if p ≤ 127 then some 31 else none), fun _ t => ⟨some (t + 100), true, true⟩⟩

example : NotStdin cards ∧ SmallSpans cards ∧ Works cards ∧ Cards cards 31 := by
  refine ⟨?_, ?_, ?_, ?_⟩
  · intro n t f h; simp only [cards, Option.some.injEq] at h; omega
  · intro n tot h p c g
    simp only [cards, Option.some.injEq] at h
    subst h
    simp only at g
    split at g
    · cases g; decide
    · cases g
  · exact fun n => ⟨⟨_, rfl⟩, fun t => ⟨⟨_, rfl⟩, rfl, rfl⟩⟩
  · intro n tot h p hp
    simp only [cards, Option.some.injEq] at h
    subst h
    simp only []
    rw [if_pos (by omega)]

example : Proper (fun _ => false) (fun _ _ => .none) [.port 0 1, .config 0 1 .sign, .update 0, .send 0 1 [1, 2], .event 0 1 ⟨false, true, true, some [1, 2, 3, 4], [], 0, (0, 0), none, none, none⟩,
    .timeout 0 1, .lapdTx 0 1 [5] 3 (0, 0) none, .config 0 1 .none, .update 0] := by
  simp [Proper]

/-- C138: a time slot that was used for signalling keeps its LAPD instance when it is used for HDLC (dahdi.c:691-700) -/
theorem C138_hdlc_violated : ∃ (w w' : W) (a b : Acts), run card init [.config 0 1 .sign, .update 0, .config 0 1 .hdlc] = .ok (w, a) ∧ lineUpdate card w 0 = .ok (w', b, 0) ∧
    (w'.s 0 1).ty = .hdlc ∧ (w'.s 0 1).lapd = true ∧ ¬ AsConfigured (w'.s 0 1) := by
  have e : ((run card init [.config 0 1 .sign, .update 0, .config 0 1 .hdlc]).bind (fun p => (lineUpdate card p.1 0).map (fun r => (r.2.2, r.1.s 0 1)))) =
      .ok (0, ⟨.hdlc, 101, true, false, true, false, []⟩) := by decide +kernel
  cases h1 : run card init [.config 0 1 .sign, .update 0, .config 0 1 .hdlc] with
  | error f => rw [h1] at e; cases e
  | ok p =>
    obtain ⟨w, a⟩ := p
    rw [h1] at e
    simp only [Except.bind] at e
    cases h2 : lineUpdate card w 0 with
    | error f => rw [h2] at e; cases e
    | ok r =>
      obtain ⟨w', b, rc⟩ := r
      rw [h2] at e
      simp only [Except.map, Except.ok.injEq, Prod.mk.injEq] at e
      obtain ⟨e1, e2⟩ := e
      subst e1
      refine ⟨w, w', a, b, rfl, h2, by rw [e2], by rw [e2], ?_⟩
      rw [e2]
      intro h
      have : (true : Bool) = false := h.2.2
      cases this

/-- C138: a watched time slot is configured for signalling; the update of the line fails at an earlier time slot: the next frame is given to a LAPD instance that does not exist -/
theorem C138_failed_update_violated : ∃ E : Env, NotStdin E ∧ SmallSpans E ∧
    run E init [.config 0 2 .raw, .update 0, .config 0 1 .raw, .config 0 2 .sign, .update 0,
      .event 0 2 ⟨false, true, false, some [1, 2, 3, 4], [], 0, (0, 0), none, none, none⟩] = .error .badptr := by
  refine ⟨⟨fun _ => some (fun _ => some 4), fun n t => if t = 1 then ⟨none, true, true⟩ else ⟨some 5, true, true⟩⟩, ?_, ?_, look_error (by decide +kernel)⟩
  · intro n t f h
    simp only at h
    split at h
    · cases h
    · cases h; decide
  · intro n tot h p c g
    simp only [Option.some.injEq] at h
    subst h
    cases g; decide

/-! ### C139 -/

/-- C139: a message on an HDLC time slot is written with two octets behind it, for which the HDLC controller sends the check sequence; the other side, which reads
the frame and its check sequence, is given exactly the message, if it has 2 to 282 octets.  Missing: messages of one octet (`short_violated`). -/
theorem C139_hdlc_roundtrip_partial (s r : Slot) (e e' : Ev) (m : List Byte) (q : List (List Byte)) (fcs : Byte × Byte) (hs : s.ty = .hdlc) (hq : s.q = m :: q) (hr : r.ty = .hdlc)
    (hw : e.wr = true) (hrd : e.rd = false) (hrd' : e'.rd = true) (hw' : e'.wr = false) (hd : e'.data = some (m ++ [fcs.1, fcs.2])) (hlen : 2 ≤ m.length ∧ m.length ≤ 282) :
    (∃ s' x y, fdCb s e = .ok (s', x ++ [.write s.fd (m ++ [e.pad.1, e.pad.2]) e.n, .free m] ++ y) ∧ s'.q = q ∧ received (x ++ y) = [] ∧ wentOut .hdlc (x ++ y) = []) ∧
    (∃ x, fdCb r e' = .ok (r, x ++ [.rx m]) ∧ received x = [] ∧ wentOut .hdlc x = []) := by
  have rcx : ∀ z, received (exception z) = [] := by
    intro z; cases z with
    | none => rfl
    | some z => cases z <;> rfl
  have rapp : ∀ a b, received (a ++ b) = received a ++ received b := by
    intro a b
    induction a with
    | nil => rfl
    | cons z a ih => cases z <;> simp [received, ih]
  have pre : ∀ (b : Bool) z, received (if b then exception z else []) = [] ∧ wentOut .hdlc (if b then exception z else []) = [] := by
    intro b z; cases b
    · exact ⟨rfl, rfl⟩
    · exact ⟨rcx z, exc_went _ z⟩
  refine ⟨⟨{ s with q := q }, if e.ex && decide (s.ty ≠ Ty.none) then exception e.x1 else [], afterWrite e.n e.x3, ?_, rfl, ?_, ?_⟩, ⟨if e'.ex && decide (r.ty ≠ Ty.none) then exception e'.x1 else [], ?_, ?_, ?_⟩⟩
  · simp only [fdCb, bind, Except.bind, opt, hw, hrd, if_true, Bool.false_eq_true, if_false, evWrite, hs, hdlcWrite, hq, List.append_nil]
    rw [List.append_assoc]; rfl
  · rw [rapp, (pre _ _).1]
    unfold afterWrite; split
    · exact rcx _
    · rfl
  · rw [went_append, (pre _ _).2, after_went]; rfl
  · have hl : (m ++ [fcs.1, fcs.2]).length = m.length + 2 := by simp
    have ht : (m ++ [fcs.1, fcs.2]).take READ_MAX = m ++ [fcs.1, fcs.2] := List.take_of_length_le (by rw [hl]; simp only [READ_MAX]; omega)
    have ht2 : (m ++ [fcs.1, fcs.2]).take (m.length + 2 - 2) = m := by rw [Nat.add_sub_cancel, List.take_left]
    simp only [fdCb, bind, Except.bind, opt, hw', hrd', if_true, Bool.false_eq_true, if_false, evRead, hr, hdlcRead, hd, readRes, Option.map_some, ht, hl, List.append_nil]
    rw [if_neg (by omega)]
    simp only [ht2]
  · exact (pre _ _).1
  · exact (pre _ _).2

example : (2 ≤ ([1, 2] : List Byte).length ∧ ([1, 2] : List Byte).length ≤ 282) ∧
    fdCb ⟨.hdlc, 5, true, true, false, false, [[1, 2], [3, 4]]⟩ ⟨false, false, true, none, [], 4, (9, 9), none, none, none⟩ =
      .ok (⟨.hdlc, 5, true, true, false, false, [[3, 4]]⟩, [.write 5 [1, 2, 9, 9] 4, .free [1, 2]]) := ⟨by decide, rfl⟩

/-- C139 (exact): what the receiver of an HDLC time slot delivers of a message of any length: nothing if it has at most one octet, otherwise its first
282 octets -/
theorem C139_hdlc_exact_partial (r : Slot) (e : Ev) (m : List Byte) (fcs : Byte × Byte) (hr : r.ty = .hdlc) (hrd : e.rd = true) (hw : e.wr = false)
    (hx : e.ex = false) (hd : e.data = some (m ++ [fcs.1, fcs.2])) :
    fdCb r e = .ok (r, if m.length ≤ 1 then [] else [.rx (m.take 282)]) := by
  have hl : (m ++ [fcs.1, fcs.2]).length = m.length + 2 := by simp
  have hlt : ((m ++ [fcs.1, fcs.2]).take READ_MAX).length = min 284 (m.length + 2) := by rw [List.length_take, hl]; rfl
  simp only [fdCb, bind, Except.bind, opt, hw, hrd, hx, Bool.false_and, if_true, Bool.false_eq_true, if_false, evRead, hr, hdlcRead, hd, readRes, Option.map_some, hlt,
    List.append_nil, List.nil_append]
  by_cases h : m.length ≤ 1
  · rw [if_pos (by omega), if_pos h]
  · rw [if_neg (by omega), if_neg h]
    simp only
    congr 4
    rw [List.take_take]
    by_cases hm : m.length ≤ 282
    · rw [show min (min 284 (m.length + 2) - 2) READ_MAX = m.length by simp only [READ_MAX]; omega, List.take_left, List.take_of_length_le hm]
    · rw [show min (min 284 (m.length + 2) - 2) READ_MAX = 282 by simp only [READ_MAX]; omega, List.take_append_of_le_length (by omega)]

/-- C139: a message of one octet is sent but dropped by the receiver (dahdi.c:322) -/
theorem C139_short_violated : ∃ s' : Slot, fdCb ⟨.hdlc, 5, true, true, false, false, [[1]]⟩ ⟨false, false, true, none, [], 3, (9, 9), none, none, none⟩ = .ok (s', [.write 5 [1, 9, 9] 3, .free [1]]) ∧
    fdCb ⟨.hdlc, 6, true, false, false, false, []⟩ ⟨false, true, false, some [1, 0xab, 0xcd], [], 0, (0, 0), none, none, none⟩ = .ok (⟨.hdlc, 6, true, false, false, false, []⟩, []) :=
  ⟨_, rfl, rfl⟩

/-- C139: on a signalling time slot LAPD is given each frame of 4 to 284 octets without its check sequence, and each frame LAPD sends is written with two octets behind it -/
theorem C139_lapd_frames (s : Slot) (e : Ev) (d : List Byte) (fcs pad : Byte × Byte) (n : Int) (x : Option Evt) (hs : s.ty = .sign) (hl : s.lapd = true) (hx : e.ex = false) (hr : e.rd = true) (hw : e.wr = false)
    (hd : e.data = some (d ++ [fcs.1, fcs.2])) (hlen : 2 ≤ d.length ∧ d.length ≤ 282) :
    fdCb s e = .ok (s, [.rx d]) ∧ ∃ y, lapdTx s d n pad x = .write s.fd (d ++ [pad.1, pad.2]) n :: y ∧ received y = [] ∧ (n ≠ -1 → y = []) := by
  have hl2 : (d ++ [fcs.1, fcs.2]).length = d.length + 2 := by simp
  have ht : (d ++ [fcs.1, fcs.2]).take READ_MAX = d ++ [fcs.1, fcs.2] := List.take_of_length_le (by rw [hl2]; simp only [READ_MAX]; omega)
  have ht2 : (d ++ [fcs.1, fcs.2]).take (d.length + 2 - 2) = d := by rw [Nat.add_sub_cancel, List.take_left]
  refine ⟨?_, afterWrite n x, rfl, ?_, ?_⟩
  · simp only [fdCb, bind, Except.bind, opt, hx, hw, hr, if_true, Bool.false_eq_true, if_false, evRead, hs, signRead, hd, readRes, Option.map_some, ht, hl2, List.append_nil, Bool.false_and, List.nil_append]
    rw [if_neg (by omega), if_pos hl]
    simp only [ht2]
  · unfold afterWrite; split
    · cases x with
      | none => rfl
      | some z => cases z <;> rfl
    · rfl
  · intro g; unfold afterWrite; rw [if_neg g]

example : fdCb ⟨.sign, 5, true, false, true, false, []⟩ ⟨false, true, false, some [1, 2, 3, 0xaa, 0xbb], [], 0, (0, 0), none, none, none⟩ =
    .ok (⟨.sign, 5, true, false, true, false, []⟩, [.rx [1, 2, 3]]) := rfl

/-! ### C140 -/

/-- C140: on a signalling, raw or HDLC time slot the messages go out in the order in which they were sent, each exactly once; those that did not are still in the queue -/
theorem C140_order {E : Env} (hE : NotStdin E) (hS : SmallSpans E) {pre ops : List Op} {w w' : W} {a b : Acts} (hp : Sane pre) (ho : Sane ops) (h0 : run E init pre = .ok (w, a))
    (h : run E w ops = .ok (w', b)) (l t : Nat) (hu : Unchanged l t ops) (hq : (w.s l t).q = []) (ht : (w.s l t).ty = .sign ∨ (w.s l t).ty = .raw ∨ (w.s l t).ty = .hdlc)
    (hl : (w.s l t).ty ≠ .sign → (w.s l t).lapd = false) :
    sent l t ops = wentOut (w.s l t).ty (ofSlot l t b) ++ (w'.s l t).q := by
  have r := (run_rinv hE hS pre (init_rinv E) hp h0).1
  have := (run_fifo hE hS l t ops r ho hu ht hl h).1
  rw [hq] at this
  exact this

/-- a watched raw time slot without messages, and what happens to two messages when there is one write event -/
theorem order_example : ∃ w a w' b, run card init [.config 0 1 .raw, .update 0] = .ok (w, a) ∧ (w.s 0 1).q = [] ∧ (w.s 0 1).ty = .raw ∧ (w.s 0 1).lapd = false ∧
    run card w [.send 0 1 [1], .send 0 1 [2], .event 0 1 ⟨false, false, true, none, [], 1, (0, 0), none, none, none⟩] = .ok (w', b) ∧
    wentOut .raw (ofSlot 0 1 b) = [[1]] ∧ (w'.s 0 1).q = [[2]] := by
  obtain ⟨w, h, h2⟩ := look_ok (r := run card init [.config 0 1 .raw, .update 0]) (a := [((0, 1), .opened 1 101)]) (s := ⟨.raw, 101, true, false, false, false, []⟩) (by decide +kernel)
  have hg : w.gone 0 = false := ((run_rinv card_ok.1 card_ok.2 _ (init_rinv card) (by intro op m; simp only [List.mem_cons, List.not_mem_nil, or_false] at m; rcases m with rfl | rfl <;> exact ⟨(by intro l p e; cases e), (by intro l e; cases e)⟩) h).1).gone 0
  refine ⟨w, _, setS (setS (setS w 0 1 ⟨.raw, 101, true, true, false, false, [[1]]⟩) 0 1 ⟨.raw, 101, true, true, false, false, [[1], [2]]⟩) 0 1 ⟨.raw, 101, true, true, false, false, [[2]]⟩,
    [((0, 1), .write 101 [1] 1), ((0, 1), .free [1])], h, by rw [h2], by rw [h2], by rw [h2], ?_, rfl, ?_⟩
  · simp [run, step, onSlot, send, wantWrite, h2, bind, Except.bind, setS_self, tag, hg, setS, fdCb, opt, evWrite, rawWrite]
  · rw [setS_self]

/-- C140: as long as the line is not updated, a message in the queue is never forgotten: the driver waits for a write event, or its timer runs.  Missing: updates
(`stuck_violated`). -/
theorem C140_wake_partial {E : Env} (hE : NotStdin E) (hS : SmallSpans E) {pre ops : List Op} {w w' : W} {a b : Acts} (hp : Sane pre) (ho : Sane ops) (h0 : run E init pre = .ok (w, a))
    (h : run E w ops = .ok (w', b)) (l t : Nat) (hu : Unchanged l t ops) (hn : NoUpdate ops) (hq : (w.s l t).q = []) (ht : (w.s l t).ty = .sign ∨ (w.s l t).ty = .raw ∨ (w.s l t).ty = .hdlc)
    (hl : (w.s l t).ty ≠ .sign → (w.s l t).lapd = false) (hne : (w'.s l t).q ≠ []) :
    (w'.s l t).wr = true ∨ (w'.s l t).timer = true := by
  have r := (run_rinv hE hS pre (init_rinv E) hp h0).1
  exact (run_fifo hE hS l t ops r ho hu ht hl h).2.2 hn (fun g => absurd hq g) hne

/-- C140: at each write event one message goes out, the oldest one; after the last one, or after each one on a signalling time slot, the driver no longer waits for write events -/
theorem C140_progress (s : Slot) (e : Ev) (m : List Byte) (q : List (List Byte)) (ht : s.ty = .sign ∨ s.ty = .raw ∨ s.ty = .hdlc) (hl : s.ty = .sign → s.lapd = true) (hq : s.q = m :: q)
    (hw : e.wr = true) (hr : e.rd = false) : ∃ s' a, fdCb s e = .ok (s', a) ∧ s'.q = q ∧ wentOut s.ty a = [m] ∧ (s.ty = .sign → s'.timer = true ∧ s'.wr = false) := by
  obtain ⟨s', a, h⟩ := fdCb_total e hl
  have f := (fdCb_ok h).fifo ht
  have key : s'.q = q ∧ (s.ty = .sign → s'.timer = true ∧ s'.wr = false) := by
    rcases ht with ht | ht | ht
    · simp only [fdCb, bind, Except.bind, opt, hw, hr, if_true, Bool.false_eq_true, if_false, evWrite, ht, signWrite, hq, hl ht] at h
      cases h; exact ⟨rfl, fun _ => ⟨rfl, rfl⟩⟩
    · simp only [fdCb, bind, Except.bind, opt, hw, hr, if_true, Bool.false_eq_true, if_false, evWrite, ht, rawWrite, hq] at h
      cases h; exact ⟨rfl, fun g => by rw [ht] at g; cases g⟩
    · simp only [fdCb, bind, Except.bind, opt, hw, hr, if_true, Bool.false_eq_true, if_false, evWrite, ht, hdlcWrite, hq] at h
      cases h; exact ⟨rfl, fun g => by rw [ht] at g; cases g⟩
  refine ⟨s', a, h, key.1, ?_, key.2⟩
  rw [hq, key.1] at f
  have : [m] ++ q = wentOut s.ty a ++ q := f
  exact (List.append_cancel_right this).symm

example : fdCb ⟨.sign, 5, true, true, true, false, [[1, 2], [3]]⟩ ⟨false, false, true, none, [], 0, (0, 0), none, none, none⟩ =
    .ok (⟨.sign, 5, true, false, true, true, [[3]]⟩, [.toLapd [1, 2]]) := rfl

/-- C140: the messages that are waiting when the type of a time slot is changed are freed, each once, and never go out; the same type again changes nothing -/
theorem C140_config_frees (s : Slot) (ty : Ty) :
    (ty ≠ s.ty → (config s ty).2 = s.q.map Act.free ∧ (config s ty).1.q = [] ∧ (config s ty).1.ty = ty ∧ (config s ty).1.timer = false) ∧
      (config s s.ty = (s, [])) ∧ (config s ty).1.fd = s.fd ∧ (config s ty).1.reg = s.reg ∧ (config s ty).1.lapd = s.lapd := by
  refine ⟨fun h => ?_, ?_, ?_⟩
  · unfold config; rw [if_neg (fun e => h e.symm)]; exact ⟨rfl, rfl, rfl, rfl⟩
  · unfold config; rw [if_pos rfl]
  · unfold config; split <;> exact ⟨rfl, rfl, rfl⟩

example : config ⟨.raw, 5, true, true, false, false, [[1], [2]]⟩ .hdlc = (⟨.hdlc, 5, true, true, false, false, []⟩, [.free [1], .free [2]]) := rfl

/-- C140: with an empty queue a write event only ends the wait for further ones, and the timer starts it again -/
theorem C140_idle (s : Slot) (e : Ev) (ht : s.ty = .sign ∨ s.ty = .raw ∨ s.ty = .hdlc) (hq : s.q = []) (hw : e.wr = true) (hr : e.rd = false) (hx : e.ex = false) :
    fdCb s e = .ok ({ s with wr := false }, []) ∧ timeout s = { s with timer := false, wr := true } := by
  refine ⟨?_, ?_⟩
  · rcases ht with ht | ht | ht <;>
      simp only [fdCb, bind, Except.bind, opt, hw, hr, hx, if_true, Bool.false_eq_true, if_false, evWrite, ht, signWrite, rawWrite, hdlcWrite, hq, Bool.false_and, List.append_nil]
  · unfold timeout wantWrite
    rw [if_neg (by show ¬ (s.ty = _ ∨ s.ty = _); rcases ht with e | e | e <;> rw [e] <;> intro g <;> rcases g with g | g <;> cases g)]

/-- C140: an update of the line ends the wait for write events also if there are messages in the queue (dahdi.c:676-699, 721): the message stays there, whatever the driver is told -/
theorem C140_stuck_violated : NotStdin card ∧ SmallSpans card ∧ ∃ w a, run card init [.config 0 1 .raw, .update 0, .send 0 1 [1], .update 0] = .ok (w, a) ∧ (w.s 0 1).q = [[1]] ∧
    (w.s 0 1).wr = false ∧ (w.s 0 1).timer = false ∧
    ∀ n : Nat, ∃ w', run card w (List.replicate n (.event 0 1 ⟨true, false, true, none, [], 1, (0, 0), none, none, none⟩)) = .ok (w', []) ∧ (w'.s 0 1).q = [[1]] := by
  obtain ⟨w, h, h2⟩ := look_ok (r := run card init [.config 0 1 .raw, .update 0, .send 0 1 [1], .update 0]) (a := [((0, 1), .opened 1 101)]) (s := ⟨.raw, 101, true, false, false, false, [[1]]⟩) (by decide +kernel)
  have hg : w.gone 0 = false := ((run_rinv card_ok.1 card_ok.2 _ (init_rinv card) (by
    intro op m; simp only [List.mem_cons, List.not_mem_nil, or_false] at m; rcases m with rfl | rfl | rfl | rfl <;> exact ⟨(by intro l p e; cases e), (by intro l e; cases e)⟩) h).1).gone 0
  refine ⟨card_ok.1, card_ok.2, w, _, h, by rw [h2], by rw [h2], by rw [h2], ?_⟩
  have key : ∀ (n : Nat) {w : W}, w.s 0 1 = ⟨.raw, 101, true, false, false, false, [[1]]⟩ → w.gone 0 = false →
      ∃ w', run card w (List.replicate n (.event 0 1 ⟨true, false, true, none, [], 1, (0, 0), none, none, none⟩)) = .ok (w', []) ∧ (w'.s 0 1).q = [[1]] := by
    intro n
    induction n with
    | zero => intro w h2 hg; exact ⟨w, rfl, by rw [h2]⟩
    | succ n ih =>
      intro w h2 hg
      obtain ⟨w', e1, e2⟩ := ih (w := setS w 0 1 ⟨.raw, 101, true, false, false, false, [[1]]⟩) (setS_self ..) hg
      refine ⟨w', ?_, e2⟩
      have e0 : step card w (.event 0 1 ⟨true, false, true, none, [], 1, (0, 0), none, none, none⟩) = .ok (setS w 0 1 ⟨.raw, 101, true, false, false, false, [[1]]⟩, []) := by
        simp [step, h2, hg, onSlot, fdCb, opt, bind, Except.bind, exception, tag]
      simp only [List.replicate, run, e0, bind, Except.bind, e1]; rfl
  exact fun n => key n h2 hg

/-! ### C141 -/

/-- C141: `rev` reverses the order of the bits: bit `i` of the result is bit `7 - i`; it is its own inverse -/
theorem C141_rev_bits : ∀ b : Byte, (∀ i : Fin 8, (rev b).getLsbD i = b.getLsbD (7 - i)) ∧ rev (rev b) = b := by decide +kernel

/-- C141: for each block of 160 octets read from a TRAU time slot, the multiplexer's next block is written, one for one; octets are passed on with their bits in the reverse order -/
theorem C141_trau_block (s : Slot) (e : Ev) (d : List Byte) (hs : s.ty = .trau) (hx : e.ex = false) (hr : e.rd = true) (hw : e.wr = false) (hd : e.data = some d) (hl : d.length = 160) :
    fdCb s e = .ok (s, [.rx (d.map rev), .write s.fd (e.mux.map rev) e.n]) := by
  have ht : d.take GRAN = d := List.take_of_length_le (by simp only [GRAN]; omega)
  simp only [fdCb, bind, Except.bind, opt, hx, hw, hr, if_true, Bool.false_eq_true, if_false, evRead, hs, trauRead, hd, readRes, Option.map_some, ht, List.append_nil, Bool.false_and, List.nil_append]
  rw [if_pos (by rw [hl]; rfl)]
  rfl

/-- C141: on I.460 time slots the octets are passed on unchanged -/
theorem C141_i460_block (s : Slot) (e : Ev) (d : List Byte) (hs : s.ty = .i460) (hx : e.ex = false) (hr : e.rd = true) (hw : e.wr = false) (hd : e.data = some d) (hl : d.length = 160) :
    fdCb s e = .ok (s, [.rx d, .write s.fd e.mux e.n]) := by
  have ht : d.take GRAN = d := List.take_of_length_le (by simp only [GRAN]; omega)
  simp only [fdCb, bind, Except.bind, opt, hx, hw, hr, if_true, Bool.false_eq_true, if_false, evRead, hs, i460Read, hd, readRes, Option.map_some, ht, List.append_nil, Bool.false_and, List.nil_append]
  rw [if_pos (by rw [hl]; rfl)]
  rfl

/-- C141: on raw time slots the octets are passed on unchanged, and for each block that is read, one message is written (if there is one) -/
theorem C141_raw_block (s : Slot) (e : Ev) (d m : List Byte) (q : List (List Byte)) (hs : s.ty = .raw) (hq : s.q = m :: q) (hx : e.ex = false) (hr : e.rd = true) (hw : e.wr = false) (hd : e.data = some d)
    (hl : d.length = 160) : fdCb s e = .ok ({ s with q := q }, [.rx d, .write s.fd m e.n, .free m]) := by
  have ht : d.take GRAN = d := List.take_of_length_le (by simp only [GRAN]; omega)
  simp only [fdCb, bind, Except.bind, opt, hx, hw, hr, if_true, Bool.false_eq_true, if_false, evRead, hs, rawRead, hd, readRes, Option.map_some, ht, List.append_nil, Bool.false_and, List.nil_append]
  rw [if_pos (by rw [hl]; rfl)]
  simp only [rawWrite, hq]
  rw [hs]

/-- C141: of a block that is not complete nothing is passed on, and nothing is written -/
theorem C141_short_block (s : Slot) (e : Ev) (d : List Byte) (hs : s.ty = .trau ∨ s.ty = .i460 ∨ s.ty = .raw) (hx : e.ex = false) (hr : e.rd = true) (hw : e.wr = false) (hd : e.data = some d) (hl : d.length < 160) :
    fdCb s e = .ok (s, []) := by
  have ht : d.take GRAN = d := List.take_of_length_le (by simp only [GRAN]; omega)
  rcases hs with hs | hs | hs <;>
    simp only [fdCb, bind, Except.bind, opt, hx, hw, hr, if_true, Bool.false_eq_true, if_false, evRead, hs, trauRead, i460Read, rawRead, hd, readRes, Option.map_some, ht, List.append_nil, Bool.false_and, List.nil_append] <;>
    rw [if_neg (by simp only [GRAN]; omega)]

example : fdCb ⟨.trau, 5, true, false, false, false, []⟩ ⟨false, true, false, some (List.replicate 160 0x80), [0x01, 0xc0], 2, (0, 0), none, none, none⟩ =
    .ok (⟨.trau, 5, true, false, false, false, []⟩, [.rx (List.replicate 160 0x01), .write 5 [0x80, 0x03] 2]) := by decide +kernel

/-! ### C142 -/

theorem noticed_append (a b : List Act) : noticed (a ++ b) = noticed a ++ noticed b := List.filter_append ..

theorem noticed_exc (x : Option Evt) : noticed (exception x) = meaning x := by
  cases x with
  | none => rfl
  | some z => cases z <;> rfl

/-- C142: each event the kernel reports, in an exception or for an error on a time slot with HDLC controller, has exactly the effects it should have, in that order, and there are no others: an alarm is signalled and counted, its end
is signalled, errors are counted -/
theorem C142_events_exact {s s' : Slot} {e : Ev} {a : List Act} (h : fdCb s e = .ok (s', a)) : noticed a = (asked s e).flatMap meaning := by
  simp only [fdCb, bind, Except.bind] at h
  cases h1 : opt e.rd s (fun s => evRead s e) with
  | error f => rw [h1] at h; cases h
  | ok p1 =>
    obtain ⟨s1, a1⟩ := p1
    rw [h1] at h
    simp only at h
    cases h2 : opt e.wr s1 (fun s => evWrite s e) with
    | error f => rw [h2] at h; cases h
    | ok p2 =>
      obtain ⟨s2, a2⟩ := p2
      rw [h2] at h
      simp only at h
      cases h
      have v := opt_ok (fun g => evRead_ok g) h1
      have r1 : noticed a1 = (if e.rd = true ∧ (s.ty = .sign ∨ s.ty = .hdlc) ∧ e.data = none then [e.x2] else []).flatMap meaning ∧ (s.ty = .hdlc → s1 = s) := by
        unfold opt at h1
        by_cases hr : e.rd = true
        · rw [if_pos hr] at h1
          unfold evRead at h1
          cases ht : s.ty <;> simp only [ht] at h1
          case none => cases h1; simp [noticed]
          case sign =>
            unfold signRead at h1
            cases hd : e.data with
            | none => simp only [hd, readRes, Option.map_none] at h1; cases h1; simp [hr, noticed_exc]
            | some d =>
              simp only [hd, readRes, Option.map_some] at h1
              split at h1
              · cases h1; simp [noticed]
              · split at h1
                · cases h1; simp [noticed]
                · cases h1
          case hdlc =>
            unfold hdlcRead at h1
            cases hd : e.data with
            | none => simp only [hd, readRes, Option.map_none] at h1; cases h1; simp [hr, noticed_exc]
            | some d =>
              simp only [hd, readRes, Option.map_some] at h1
              split at h1
              · cases h1; simp [noticed]
              · cases h1; simp [noticed]
          case trau =>
            have e1 : a1 = (trauRead s e).2 := by injection h1 with h1; rw [h1]
            rw [e1]
            refine ⟨?_, (by intro g; cases g)⟩
            unfold trauRead trauWrite
            split
            · simp [noticed]
            · split <;> simp [noticed]
          case raw =>
            have e1 : a1 = (rawRead s e).2 := by injection h1 with h1; rw [h1]
            rw [e1]
            refine ⟨?_, (by intro g; cases g)⟩
            unfold rawRead rawWrite
            split
            · simp [noticed]
            · split
              · cases s.q <;> simp [noticed]
              · simp [noticed]
          case i460 =>
            have e1 : a1 = (i460Read s e).2 := by injection h1 with h1; rw [h1]
            rw [e1]
            refine ⟨?_, (by intro g; cases g)⟩
            unfold i460Read i460Write
            split
            · simp [noticed]
            · split <;> simp [noticed]
        · rw [if_neg hr] at h1
          cases h1
          simp [noticed, hr]
      have r2 : noticed a2 = (if e.wr = true ∧ s.ty = .hdlc ∧ s.q ≠ [] ∧ e.n = -1 then [e.x3] else []).flatMap meaning := by
        unfold opt at h2
        by_cases hw : e.wr = true
        · rw [if_pos hw] at h2
          simp only [evWrite] at h2
          rw [v.ty] at h2
          cases ht : s.ty <;> simp only [ht] at h2
          case none => cases h2; simp [noticed]
          case sign =>
            unfold signWrite at h2
            split at h2
            · cases h2; simp [noticed]
            · split at h2
              · cases h2; simp [noticed]
              · cases h2
          case hdlc =>
            rw [r1.2 ht] at h2
            have e1 : a2 = (hdlcWrite s e).2 := by injection h2 with h2; rw [h2]
            rw [e1]
            unfold hdlcWrite
            split
            · rename_i hq; simp [noticed, hq]
            · rename_i m q hq
              show noticed (afterWrite e.n e.x3) = _
              unfold afterWrite
              by_cases hn : e.n = -1
              · rw [if_pos hn, noticed_exc]; simp [hw, hq, hn]
              · rw [if_neg hn]; simp [hn, noticed]
          case trau => cases h2; simp [noticed, trauWrite]
          case raw =>
            have e1 : a2 = (rawWrite s1 e).2 := by injection h2 with h2; rw [h2]
            rw [e1]
            unfold rawWrite
            split <;> simp [noticed]
          case i460 => cases h2; simp [noticed, i460Write]
        · rw [if_neg hw] at h2
          cases h2
          simp [noticed, hw]
      rw [noticed_append, noticed_append, r1.1, r2]
      unfold asked
      rw [List.flatMap_append, List.flatMap_append]
      congr 2
      by_cases hx : e.ex = true
      · by_cases ht : s.ty = .none
        · simp [ht, noticed]
        · simp [hx, ht, noticed_exc]
      · simp [hx, noticed]

/-- C142: LAPD's frames: the event of a failed `write()` -/
theorem C142_lapd_events_exact (s : Slot) (d : List Byte) (n : Int) (pad : Byte × Byte) (x : Option Evt) : noticed (lapdTx s d n pad x) = if n = -1 then meaning x else [] := by
  show noticed (afterWrite n x) = _
  unfold afterWrite
  split
  · exact noticed_exc x
  · rfl

example : fdCb ⟨.hdlc, 5, true, true, false, false, [[1, 2]]⟩ ⟨true, true, true, none, [], -1, (9, 9), some .alarm, some .abort, some .noalarm⟩ =
    .ok (⟨.hdlc, 5, true, true, false, false, []⟩, [.signal true, .count .alarm, .count .abort, .write 5 [1, 2, 9, 9] (-1), .free [1, 2], .signal false]) := rfl

end Verif.Dahdi
