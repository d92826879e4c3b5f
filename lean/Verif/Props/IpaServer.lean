import Verif.Spec.IpaServer
/-!
# IPA server connections
-/
set_option maxRecDepth 10000
namespace Verif.Ipa.Srv

structure Inv (c : Conn) : Prop where
  reg : c.reg = c.fd.isSome
  gone : c.gone = true → c.fd = none ∧ Frame.afterClosed ∉ c.frames
  live : c.fd.isSome = true → Frame.afterClosed ∉ c.frames
  closing : c.fd = none → c.gone = false → Frame.afterClosed ∈ c.frames ∧ c.closedCb = true
  one : c.frames.count .afterClosed ≤ 1
  wake : c.queue ≠ [] → c.wr = true

/-- the phase of a connection between operations -/
def phase (c : Conn) : Phase :=
  match c.fd with
  | some f => .live f
  | none => if c.gone then .freed else .closed

structure Good (c : Conn) (op : Op) (c' : Conn) (a : List Act) : Prop where
  inv : Inv c'
  ph : (phase c).acts c.closedCb a = some (phase c')
  cb : c'.cb = c.cb
  closedCb : c'.closedCb = c.closedCb
  ccmCb : c'.ccmCb = c.ccmCb
  fifo : c.queue ++ sends [op] = handed a ++ c'.queue
  freed : freed a = handed a
  one : (handed a).length ≤ 1

theorem good_idle {c c' : Conn} {op : Op} (hi : Inv c') (hp : phase c' = phase c) (h1 : c'.cb = c.cb) (h2 : c'.closedCb = c.closedCb)
    (h3 : c'.ccmCb = c.ccmCb) (hq : c'.queue = c.queue) (hs : sends [op] = []) : Good c op c' [] :=
  ⟨hi, by rw [hp]; rfl, h1, h2, h3, by rw [hs, hq]; simp [handed], rfl, by simp [handed]⟩

theorem good_destroy {c : Conn} (h : Inv c) (hg : c.gone = false) (op : Op) (hs : sends [op] = []) :
    ∃ c' a, destroy c = .ok (c', a) ∧ Good c op c' a := by
  obtain ⟨fd, reg, wr, queue, cb, closedCb, ccmCb, frames, gone⟩ := c
  simp only at hg
  subst hg
  cases fd with
  | none => exact ⟨_, _, rfl, good_idle h rfl rfl rfl rfl rfl hs⟩
  | some f =>
    have hr : reg = true := h.reg
    subst hr
    have hl : Frame.afterClosed ∉ frames := h.live rfl
    cases closedCb with
    | true =>
      refine ⟨_, _, rfl, ⟨⟨rfl, ?_, ?_, ?_, ?_, h.wake⟩, ?_, rfl, rfl, rfl, ?_, rfl, ?_⟩⟩
      · intro e; cases e
      · intro e; cases e
      · intro _ _; exact ⟨List.mem_cons_self, rfl⟩
      · show (Frame.afterClosed :: frames).count .afterClosed ≤ 1
        rw [List.count_cons_self, List.count_eq_zero.2 hl]
        exact Nat.le_refl _
      · simp [phase, Phase.acts, Phase.next]
      · rw [hs]; simp [handed]
      · simp [handed]
    | false =>
      refine ⟨_, _, rfl, ⟨⟨rfl, ?_, ?_, ?_, ?_, h.wake⟩, ?_, rfl, rfl, rfl, ?_, rfl, ?_⟩⟩
      · intro e; exact ⟨rfl, hl⟩
      · intro e; cases e
      · intro _ e; cases e
      · exact h.one
      · simp [phase, Phase.acts, Phase.next]
      · rw [hs]; simp [handed]
      · simp [handed]

theorem good_write {c : Conn} (h : Inv c) {f : Nat} (hf : c.fd = some f) (op : Op) (hs : sends [op] = []) (rc : Int) (wr ok : Bool) :
    ∃ c' a, writePart c rc wr ok = .ok (c', a) ∧ Good c op c' a := by
  have hg : c.gone = false := by
    cases e : c.gone with
    | false => rfl
    | true => rw [(h.gone e).1] at hf; cases hf
  unfold writePart
  split
  · obtain ⟨fd, reg, wr, queue, cb, closedCb, ccmCb, frames, gone⟩ := c
    simp only at hg hf
    subst hg hf
    cases queue with
    | nil =>
      refine ⟨_, _, rfl, good_idle ⟨h.reg, h.gone, h.live, h.closing, h.one, ?_⟩ rfl rfl rfl rfl rfl hs⟩
      intro e; exact absurd rfl e
    | cons m q =>
      refine ⟨_, _, rfl, ⟨⟨h.reg, h.gone, h.live, h.closing, h.one, ?_⟩, ?_, rfl, rfl, rfl, ?_, rfl, ?_⟩⟩
      · intro _; exact h.wake (by simp)
      · simp [phase, Phase.acts, Phase.next]
      · rw [hs]; simp [handed]
      · simp [handed]
  · exact ⟨_, _, rfl, good_idle h rfl rfl rfl rfl rfl hs⟩

theorem inv_pop {c : Conn} (h : Inv c) {f : Frame} {fs : List Frame} (e : c.frames = f :: fs) (hf : f ≠ .afterClosed) :
    Inv { c with frames := fs } := by
  refine ⟨h.reg, ?_, ?_, ?_, ?_, h.wake⟩
  · intro hg
    refine ⟨(h.gone hg).1, fun hm => (h.gone hg).2 ?_⟩
    rw [e]; exact List.mem_cons_of_mem _ hm
  · intro hl hm
    refine h.live hl ?_
    rw [e]; exact List.mem_cons_of_mem _ hm
  · intro h1 h2
    obtain ⟨h3, h4⟩ := h.closing h1 h2
    rw [e] at h3
    rcases List.mem_cons.1 h3 with h3 | h3
    · exact absurd h3.symm hf
    · exact ⟨h3, h4⟩
  · have := h.one
    rw [e, List.count_cons_of_ne hf] at this
    exact this

theorem inv_push {c : Conn} (h : Inv c) {f : Frame} (hf : f ≠ .afterClosed) :
    Inv { c with frames := f :: c.frames } := by
  refine ⟨h.reg, ?_, ?_, ?_, ?_, h.wake⟩
  · intro hg
    refine ⟨(h.gone hg).1, fun hm => ?_⟩
    rcases List.mem_cons.1 hm with e | e
    · exact hf e.symm
    · exact (h.gone hg).2 e
  · intro hl hm
    rcases List.mem_cons.1 hm with e | e
    · exact hf e.symm
    · exact h.live hl e
  · intro h1 h2
    obtain ⟨h3, h4⟩ := h.closing h1 h2
    exact ⟨List.mem_cons_of_mem _ h3, h4⟩
  · show (f :: c.frames).count .afterClosed ≤ 1
    rw [List.count_cons_of_ne hf]
    exact h.one

theorem use_ok {c : Conn} (h : c.gone = false) : use c = .ok () := by simp [use, h]
theorem bind_ok {α β : Type} (x : α) (f : α → M β) : (Except.ok x >>= f) = f x := rfl
theorem bind_err {α β : Type} (e : Fault) (f : α → M β) : ((Except.error e : M α) >>= f) = .error e := rfl

instance (t : Option (Option Nat)) : Decidable (∃ n, t = some (some (n + 1))) :=
  match t with
  | some (some (n + 1)) => .isTrue ⟨n, rfl⟩
  | some (some 0) => .isFalse (by rintro ⟨n, e⟩; cases e)
  | some none => .isFalse (by rintro ⟨n, e⟩; cases e)
  | none => .isFalse (by rintro ⟨n, e⟩; cases e)

/-- the return value and the actions of `ipa_server_conn_ccm` -/
theorem ccm_cases {c : Conn} (hg : c.gone = false) (x : Ccm) :
    ccm c x = if x.base = 1 ∨ (x.base = 0 ∧ x.msgType ≠ MSGT_ID_RESP) then .ok (c, some 0, [])
      else if x.base = 0 ∧ ∃ n, x.tlv = some (some (n + 1)) then
        if c.ccmCb then .ok ({ c with frames := .afterCcm :: c.frames }, none, [.ccm]) else .error .badptr
      else (destroy c).map fun p => (p.1, some (-1), p.2) := by
  have hd : ((do let (c, a) ← destroy c; .ok (c, some (-1), a)) : M (Conn × Option Int × List Act)) =
      (destroy c).map fun p => (p.1, some (-1), p.2) := by
    cases destroy c <;> rfl
  unfold ccm
  rw [use_ok hg, bind_ok, hd]
  obtain ⟨base, mt, tlv⟩ := x
  simp only
  by_cases h1 : base = 1
  · rw [if_pos h1, if_pos (.inl h1)]
  · rw [if_neg h1]
    by_cases h0 : base = 0
    · rw [if_pos h0]
      by_cases hm : mt = MSGT_ID_RESP
      · have hN : ¬ (base = 1 ∨ (base = 0 ∧ mt ≠ MSGT_ID_RESP)) := by
          rintro (h | h)
          · exact h1 h
          · exact h.2 hm
        rw [if_pos hm, if_neg hN]
        cases tlv with
        | none =>
            have hA : ¬ (base = 0 ∧ ∃ n, (none : Option (Option Nat)) = some (some (n + 1))) := by {rintro ⟨_, n, e⟩; cases e}
            rw [if_neg hA]
        | some t =>
          cases t with
          | none =>
            have hA : ¬ (base = 0 ∧ ∃ n, some (none : Option Nat) = some (some (n + 1))) := by {rintro ⟨_, n, e⟩; cases e}
            rw [if_neg hA]
          | some n =>
            cases n with
            | zero =>
            have hA : ¬ (base = 0 ∧ ∃ n, some (some 0) = some (some (n + 1))) := by {rintro ⟨_, n, e⟩; cases e}
            rw [if_neg hA]
            rfl
            | succ n =>
              have hY : base = 0 ∧ ∃ k, some (some (n + 1)) = some (some (k + 1)) := ⟨h0, n, rfl⟩
              rw [if_pos hY]
              simp
      · rw [if_neg hm, if_pos (.inr ⟨h0, hm⟩)]
    · have hN : ¬ (base = 1 ∨ (base = 0 ∧ mt ≠ MSGT_ID_RESP)) := by
        rintro (h | h)
        · exact h1 h
        · exact h0 h.1
      have hA : ¬ (base = 0 ∧ ∃ n, tlv = some (some (n + 1))) := fun h => h0 h.1
      rw [if_neg h0, if_neg hN, if_neg hA]

theorem step_good {c : Conn} {op : Op} (h : Inv c) (ha : Adm c op) : ∃ c' a, step c op = .ok (c', a) ∧ Good c op c' a := by
  cases op with
  | send m =>
    have hg : c.gone = false := ha
    refine ⟨{ c with queue := c.queue ++ [m], wr := true }, [], ?_, ⟨⟨h.reg, h.gone, h.live, h.closing, h.one, fun _ => rfl⟩, rfl, rfl, rfl, rfl, rfl, rfl, by simp [handed]⟩⟩
    simp only [step, send, use_ok hg, bind_ok]
  | destroy => exact good_destroy h ha _ rfl
  | ccm x =>
    obtain ⟨hg, hc⟩ := ha
    simp only [step]
    rw [ccm_cases hg]
    split
    · exact ⟨_, _, rfl, good_idle h rfl rfl rfl rfl rfl rfl⟩
    · rename_i hn
      split
      · rename_i hy
        have hm : x.msgType = MSGT_ID_RESP := Decidable.byContradiction fun e => hn (.inr ⟨hy.1, e⟩)
        rw [if_pos (hc hm)]
        refine ⟨{ c with frames := .afterCcm :: c.frames }, [.ccm], rfl, ⟨inv_push h (by decide), ?_, rfl, rfl, rfl, ?_, rfl, by simp [handed]⟩⟩
        · have : phase { c with frames := .afterCcm :: c.frames } = phase c := rfl
          rw [this]
          unfold phase
          rw [hg]
          cases c.fd <;> rfl
        · simp [sends, handed]
      · obtain ⟨c', a, h1, h2⟩ := good_destroy h hg (.ccm x) rfl
        rw [h1]
        exact ⟨c', a, rfl, h2⟩
  | fd rd wr rcv ok =>
    obtain ⟨hfr, hr, hw⟩ := ha
    have hfs : c.fd.isSome = true := by rw [← h.reg]; exact hr
    obtain ⟨f, hf⟩ := Option.isSome_iff_exists.1 hfs
    have hg : c.gone = false := by
      cases e : c.gone with
      | false => rfl
      | true => rw [(h.gone e).1] at hf; cases hf
    simp only [step, fdCb, use_ok hg, bind_ok]
    cases rd with
    | false => exact good_write h hf _ rfl 0 wr ok
    | true =>
      rw [if_pos rfl]
      cases rcv with
      | again => exact good_write h hf _ rfl 0 wr ok
      | err => exact good_destroy h hg _ rfl
      | msg m =>
        simp only
        split
        · refine ⟨{ c with frames := .afterRead wr ok :: c.frames }, [.deliver m], rfl, ⟨inv_push h (by simp), ?_, rfl, rfl, rfl, ?_, rfl, by simp [handed]⟩⟩
          · have : phase { c with frames := .afterRead wr ok :: c.frames } = phase c := rfl
            rw [this]
            unfold phase
            rw [hf]
            rfl
          · simp [sends, handed]
        · exact good_write h hf _ rfl 0 wr ok
  | cbReturn rc =>
    obtain ⟨fr, fs, e, hret, hccm⟩ := ha
    simp only [step, cbReturn, e]
    cases fr with
    | afterClosed =>
      have hg : c.gone = false := by
        cases eg : c.gone with
        | false => rfl
        | true => exact absurd (by rw [e]; exact List.mem_cons_self) ((h.gone eg).2)
      have hf : c.fd = none := by
        cases ef : c.fd with
        | none => rfl
        | some f => exact absurd (by rw [e]; exact List.mem_cons_self) (h.live (by rw [ef]; rfl))
      simp only [use_ok hg, bind_ok]
      have hn : Frame.afterClosed ∉ fs := by
        have := h.one
        rw [e, List.count_cons_self] at this
        exact List.count_eq_zero.1 (by omega)
      refine ⟨{ c with frames := fs, gone := true }, _, rfl, ⟨⟨h.reg, ?_, ?_, ?_, ?_, h.wake⟩, ?_, rfl, rfl, rfl, ?_, rfl, by simp [handed]⟩⟩
      · intro _; exact ⟨hf, hn⟩
      · intro h2; simp only [hf] at h2; cases h2
      · intro _ h2; cases h2
      · show fs.count .afterClosed ≤ 1
        rw [List.count_eq_zero.2 hn]; omega
      · simp [phase, hf, hg, Phase.acts, Phase.next]
      · simp [sends, handed]
    | afterCcm =>
      have hi := inv_pop h e (by decide)
      simp only
      split
      · rename_i hneg
        have hg : c.gone = false := by
          cases eg : c.gone with
          | false => rfl
          | true => have := hccm rfl eg; omega
        obtain ⟨c', a, h1, h2⟩ := good_destroy hi hg (.cbReturn rc) rfl
        exact ⟨c', a, h1, ⟨h2.inv, h2.ph, h2.cb, h2.closedCb, h2.ccmCb, h2.fifo, h2.freed, h2.one⟩⟩
      · exact ⟨_, _, rfl, good_idle hi rfl rfl rfl rfl rfl rfl⟩
    | afterRead wr ok =>
      have hi := inv_pop h e (by simp)
      simp only
      by_cases hb : rc = -EBADF
      · unfold writePart
        rw [if_neg (fun h => h.1 hb)]
        exact ⟨_, _, rfl, good_idle hi rfl rfl rfl rfl rfl rfl⟩
      · have hcond : ¬ (c.gone = true ∨ c.fd = none) := fun hh => hb (hret wr ok rfl hh)
        cases hfs : c.fd.isSome with
        | false => exact absurd (.inr (Option.isNone_iff_eq_none.1 (by simpa using hfs))) hcond
        | true =>
          obtain ⟨f, ef⟩ := Option.isSome_iff_exists.1 hfs
          obtain ⟨c', a, h1, h2⟩ := good_write hi (f := f) ef (.cbReturn rc) rfl rc wr ok
          exact ⟨c', a, h1, ⟨h2.inv, h2.ph, h2.cb, h2.closedCb, h2.ccmCb, h2.fifo, h2.freed, h2.one⟩⟩

structure GoodRun (c : Conn) (ops : List Op) (c' : Conn) (tr : List (List Act)) : Prop where
  run : run c ops = .ok (c', tr)
  inv : Inv c'
  ph : (phase c).acts c.closedCb tr.flatten = some (phase c')
  closedCb : c'.closedCb = c.closedCb
  fifo : c.queue ++ sends ops = handed tr.flatten ++ c'.queue
  freed : Verif.Ipa.Srv.freed tr.flatten = handed tr.flatten
  one : ∀ a ∈ tr, (handed a).length ≤ 1

theorem acts_append (cb : Bool) (p : Phase) (a b : List Act) : p.acts cb (a ++ b) = (p.acts cb a).bind fun q => q.acts cb b := by
  induction a generalizing p with
  | nil => rfl
  | cons x a ih =>
    simp only [List.cons_append, Phase.acts]
    cases p.next cb x with
    | none => rfl
    | some q => exact ih q

theorem sends_cons (op : Op) (ops : List Op) : sends (op :: ops) = sends [op] ++ sends ops := by
  cases op <;> rfl

theorem run_good {c : Conn} {ops : List Op} (h : Inv c) (ha : AdmRun c ops) : ∃ c' tr, GoodRun c ops c' tr := by
  induction ops generalizing c with
  | nil => exact ⟨c, [], rfl, h, rfl, rfl, by simp [sends, handed], rfl, by intro a ha; cases ha⟩
  | cons op ops ih =>
    obtain ⟨c1, a, hs, g⟩ := step_good h ha.1
    obtain ⟨c2, tr, r⟩ := ih g.inv (ha.2 c1 a hs)
    refine ⟨c2, a :: tr, ⟨?_, r.inv, ?_, r.closedCb.trans g.closedCb, ?_, ?_, ?_⟩⟩
    · simp only [run, hs, bind_ok, r.run]
    · rw [List.flatten_cons, acts_append, g.ph]
      have := r.ph
      rw [g.closedCb] at this
      exact this
    · rw [sends_cons, ← List.append_assoc, g.fifo, List.append_assoc, r.fifo]
      simp [handed]
    · have h1 := g.freed
      have h2 := r.freed
      simp only [Verif.Ipa.Srv.freed, handed] at h1 h2 ⊢
      rw [List.flatten_cons, List.filterMap_append, List.filterMap_append, h1, h2]
    · intro b hb
      rcases List.mem_cons.1 hb with e | e
      · subst e; exact g.one
      · exact r.one b e

theorem inv_create {f : Nat} {cb closedCb ccmCb : Bool} {c : Conn} (h : create f cb closedCb ccmCb true = some c) :
    Inv c ∧ phase c = .live f ∧ c.closedCb = closedCb ∧ c.queue = [] := by
  simp only [create, if_true, Option.some.injEq] at h
  subst h
  refine ⟨⟨rfl, ?_, ?_, ?_, ?_, ?_⟩, rfl, rfl, rfl⟩
  · intro e; cases e
  · intro _ e; cases e
  · intro e; cases e
  · exact Nat.zero_le _
  · intro e; exact absurd rfl e

/-- Life cycle of a server connection: for every history, including calls from callbacks, there is no fault, and
what is observed follows `Phase.next`: the socket is closed exactly once, then `closed_cb` is called exactly once, then
the object is freed exactly once; messages are delivered and sent only before. -/
theorem server_lifecycle {f : Nat} {cb closedCb ccmCb : Bool} {c : Conn} (hc : create f cb closedCb ccmCb true = some c)
    {ops : List Op} (ha : AdmRun c ops) :
    ∃ c' tr p, run c ops = .ok (c', tr) ∧ (Phase.live f).acts closedCb tr.flatten = some p ∧
      (p = .freed ↔ c'.gone = true) ∧ (p = .live f ↔ c'.fd = some f) ∧ p ≠ .closing := by
  obtain ⟨hi, hp, hcb, hq⟩ := inv_create hc
  obtain ⟨c', tr, r⟩ := run_good hi ha
  refine ⟨c', tr, phase c', r.run, by rw [← hp, ← hcb]; exact r.ph, ?_, ?_, ?_⟩
  · unfold phase
    cases hf : c'.fd with
    | none => simp only; cases c'.gone <;> simp
    | some g =>
      have : c'.gone = false := by
        cases e : c'.gone with
        | false => rfl
        | true => rw [(r.inv.gone e).1] at hf; cases hf
      simp [this]
  · unfold phase
    cases hf : c'.fd with
    | none => simp only; cases c'.gone <;> simp
    | some g => simp
  · unfold phase
    cases hf : c'.fd with
    | none => simp only; cases c'.gone <;> simp
    | some g => simp

/-- counting form of the above -/
theorem acts_counts (cb : Bool) (p q : Phase) (as : List Act) (h : p.acts cb as = some q) :
    (as.filter fun a => match a with | .closeFd _ => true | _ => false).length ≤ (match p with | .live _ => 1 | _ => 0) ∧
    as.count .closed ≤ (match p with | .live _ => 1 | .closing => 1 | _ => 0) ∧
    as.count .freeConn ≤ (match p with | .freed => 0 | _ => 1) ∧
    (q = .freed → as.count .freeConn = (match p with | .freed => 0 | _ => 1) ∧
      (cb = true → as.count .closed = (match p with | .live _ => 1 | .closing => 1 | _ => 0)) ∧
      (as.filter fun a => match a with | .closeFd _ => true | _ => false).length = (match p with | .live _ => 1 | _ => 0)) := by
  induction as generalizing p with
  | nil =>
    simp only [Phase.acts, Option.some.injEq] at h
    subst h
    refine ⟨Nat.zero_le _, Nat.zero_le _, Nat.zero_le _, ?_⟩
    intro e; subst e; simp
  | cons a as ih =>
    simp only [Phase.acts] at h
    cases hn : p.next cb a with
    | none => rw [hn] at h; cases h
    | some p' =>
      rw [hn] at h
      have := ih p' h
      cases p with
      | live f =>
        cases a with
        | closeFd g =>
          simp only [Phase.next] at hn
          split at hn
          · cases hn
            simp only [List.filter_cons, List.count_cons] at this ⊢
            simpa using this
          · cases hn
        | sendTo fd m ok =>
          cases fd with
          | none => cases hn
          | some g =>
            simp only [Phase.next] at hn
            split at hn
            · cases hn
              simp only [List.filter_cons, List.count_cons] at this ⊢
              simpa using this
            · cases hn
        | closed => cases hn
        | freeConn => cases hn
        | deliver m => cases hn; simp only [List.filter_cons, List.count_cons] at this ⊢; simpa using this
        | ccm => cases hn; simp only [List.filter_cons, List.count_cons] at this ⊢; simpa using this
        | free m => cases hn; simp only [List.filter_cons, List.count_cons] at this ⊢; simpa using this
      | closing =>
        cases a with
        | closed =>
          simp only [Phase.next] at hn
          split at hn
          · cases hn
            simp only [List.filter_cons, List.count_cons] at this ⊢
            simpa using this
          · cases hn
        | freeConn =>
          simp only [Phase.next] at hn
          split at hn
          · cases hn
          · rename_i hcb
            cases hn
            simp only [List.filter_cons, List.count_cons] at this ⊢
            simp only [Bool.not_eq_true] at hcb
            subst hcb
            obtain ⟨t1, t2, t3, t4⟩ := this
            refine ⟨by simpa using t1, Nat.le_trans (Nat.add_le_add_right t2 _) (by simp), ?_, ?_⟩
            · exact Nat.le_trans (Nat.add_le_add_right t3 _) (by simp)
            · intro e
              obtain ⟨u1, u2, u3⟩ := t4 e
              refine ⟨by rw [u1]; simp, (fun h => by cases h), by simpa using u3⟩
        | _ => cases hn
      | closed =>
        cases a with
        | ccm => cases hn; simp only [List.filter_cons, List.count_cons] at this ⊢; simpa using this
        | freeConn => cases hn; simp only [List.filter_cons, List.count_cons] at this ⊢; simpa using this
        | _ => cases hn
      | freed => cases a <;> cases hn

/-- in every history the socket of a connection is closed, `closed_cb` called and the object freed at most once, and
exactly once each if the object is freed -/
theorem server_once {f : Nat} {cb ccmCb : Bool} {c : Conn} (hc : create f cb true ccmCb true = some c)
    {ops : List Op} (ha : AdmRun c ops) :
    ∃ c' tr, run c ops = .ok (c', tr) ∧
      (tr.flatten.filter fun a => match a with | .closeFd _ => true | _ => false).length ≤ 1 ∧
      tr.flatten.count .closed ≤ 1 ∧ tr.flatten.count .freeConn ≤ 1 ∧
      (c'.gone = true → tr.flatten.count .closed = 1 ∧ tr.flatten.count .freeConn = 1 ∧
        (tr.flatten.filter fun a => match a with | .closeFd _ => true | _ => false).length = 1) := by
  obtain ⟨c', tr, p, h1, h2, h3, h4, h5⟩ := server_lifecycle hc ha
  obtain ⟨k1, k2, k3, k4⟩ := acts_counts _ _ _ _ h2
  refine ⟨c', tr, h1, k1, k2, k3, ?_⟩
  intro hg
  obtain ⟨j1, j2, j3⟩ := k4 (h3.2 hg)
  exact ⟨j2 rfl, j1, j3⟩

/-- a lost connection is reported: the error of the socket closes it and calls `closed_cb` in the same event -/
theorem server_lost {f : Nat} {cb ccmCb : Bool} {c : Conn} (hc : create f cb true ccmCb true = some c)
    {ops : List Op} (ha : AdmRun c ops) :
    ∃ c' tr, run c ops = .ok (c', tr) ∧ ∀ g, c'.fd = some g → ∀ wr ok, ∃ c'', fdCb c' true wr .err ok = .ok (c'', [.closeFd g, .closed]) ∧
      ∀ rc, ∃ c3, step c'' (.cbReturn rc) = .ok (c3, [.freeConn]) ∧ c3.gone = true := by
  obtain ⟨hi, hp, hcb, hq⟩ := inv_create hc
  obtain ⟨c', tr, r⟩ := run_good hi ha
  refine ⟨c', tr, r.run, ?_⟩
  intro g hf wr ok
  have hg : c'.gone = false := by
    cases e : c'.gone with
    | false => rfl
    | true => rw [(r.inv.gone e).1] at hf; cases hf
  have hr : c'.reg = true := by rw [r.inv.reg, hf]; rfl
  have hcl : c'.closedCb = true := r.closedCb.trans hcb
  clear r
  obtain ⟨fd, reg, wr', queue, cb', closedCb', ccmCb', frames, gone⟩ := c'
  simp only at hg hf hr hcl
  subst hg hf hr hcl
  exact ⟨_, rfl, fun rc => ⟨_, rfl, rfl⟩⟩

/-- The messages handed to the socket are, in order and each once, the first ones of those passed to
`ipa_server_conn_send`, the rest is queued; each is freed when it was handed over; an operation hands over at most one;
write events are enabled while a message is queued. -/
theorem server_fifo {f : Nat} {cb closedCb ccmCb : Bool} {c : Conn} (hc : create f cb closedCb ccmCb true = some c)
    {ops : List Op} (ha : AdmRun c ops) :
    ∃ c' tr, run c ops = .ok (c', tr) ∧ sends ops = handed tr.flatten ++ c'.queue ∧ freed tr.flatten = handed tr.flatten ∧
      (∀ a ∈ tr, (handed a).length ≤ 1) ∧ (c'.queue ≠ [] → c'.wr = true) := by
  obtain ⟨hi, hp, hcb, hq⟩ := inv_create hc
  obtain ⟨c', tr, r⟩ := run_good hi ha
  refine ⟨c', tr, r.run, ?_, r.freed, r.one, r.inv.wake⟩
  have := r.fifo
  rw [hq] at this
  exact this

/-- a write event sends the oldest message -/
theorem server_write_event {c : Conn} {f : Nat} (hg : c.gone = false) (hf : c.fd = some f) (rcv : Rcv) (ok : Bool) :
    (∀ m q, c.queue = m :: q → fdCb c false true rcv ok = .ok ({ c with queue := q }, [.sendTo (some f) m ok, .free m])) ∧
    (c.queue = [] → fdCb c false true rcv ok = .ok ({ c with wr := false }, [])) := by
  obtain ⟨fd, reg, wr, queue, cb, closedCb, ccmCb, frames, gone⟩ := c
  simp only at hg hf
  subst hg hf
  refine ⟨?_, ?_⟩
  · intro m q hq
    simp only at hq
    subst hq
    cases ok <;> rfl
  · intro hq
    simp only at hq
    subst hq
    rfl

/-- CCM messages: an ID RESP with a unit id goes to `ccm_cb`; a malformed one, or an error reported by libosmocore,
closes the connection and returns -1; everything else is ignored -/
theorem server_ccm {c : Conn} (hg : c.gone = false) (hcb : c.ccmCb = true) {f : Nat} (hf : c.fd = some f) (hr : c.reg = true) (hcl : c.closedCb = true) (x : Ccm) :
    (x.base = 0 → x.msgType = MSGT_ID_RESP → (∃ n, x.tlv = some (some (n + 1))) →
      ccm c x = .ok ({ c with frames := .afterCcm :: c.frames }, none, [.ccm])) ∧
    (x.base = 1 ∨ x.base = 0 ∧ x.msgType ≠ MSGT_ID_RESP → ccm c x = .ok (c, some 0, [])) ∧
    (x.base ≠ 1 → (x.base ≠ 0 ∨ x.msgType = MSGT_ID_RESP ∧ ¬ ∃ n, x.tlv = some (some (n + 1))) →
      ∃ c', ccm c x = .ok (c', some (-1), [.closeFd f, .closed]) ∧ c'.fd = none) := by
  rw [ccm_cases hg]
  refine ⟨?_, ?_, ?_⟩
  · intro h0 hm hx
    have hN : ¬ (x.base = 1 ∨ (x.base = 0 ∧ x.msgType ≠ MSGT_ID_RESP)) := by
      rintro (h | h)
      · omega
      · exact h.2 hm
    rw [if_neg hN, if_pos ⟨h0, hx⟩, if_pos hcb]
  · intro h; rw [if_pos h]
  · intro h1 hx
    rw [if_neg, if_neg]
    · obtain ⟨fd, reg, wr', queue, cb', closedCb', ccmCb', frames, gone⟩ := c
      simp only at hg hf hr hcl
      subst hg hf hr hcl
      exact ⟨_, rfl, rfl⟩
    · rintro ⟨h0, h2⟩
      rcases hx with hx | hx
      · exact hx h0
      · exact hx.2 h2
    · rintro (h | h)
      · exact h1 h
      · rcases hx with hx | hx
        · exact hx h.1
        · exact h.2 hx.1

/-- the error of `ccm_cb` closes the connection -/
theorem server_ccm_cb_error {c : Conn} (hg : c.gone = false) {f : Nat} (hf : c.fd = some f) (hr : c.reg = true) (hcl : c.closedCb = true)
    {fs : List Frame} (he : c.frames = .afterCcm :: fs) (rc : Int) (hn : rc < 0) :
    ∃ c', step c (.cbReturn rc) = .ok (c', [.closeFd f, .closed]) ∧ c'.fd = none := by
  obtain ⟨fd, reg, wr', queue, cb', closedCb', ccmCb', frames, gone⟩ := c
  simp only at hg hf hr hcl he
  subst hg hf hr hcl he
  simp only [step, cbReturn]
  rw [if_pos hn]
  exact ⟨_, rfl, rfl⟩

/-! ### listening sockets -/

/-- opened only while closed -/
def LAdm (l : Link) : LOp → Prop
  | .open _ _ => l.fd = none
  | .close => True
  | .event _ => l.reg = true ∧ l.pending = []
  | .acceptReturn _ => l.pending ≠ []

def LAdmRun (l : Link) : List LOp → Prop
  | [] => True
  | op :: ops => LAdm l op ∧ ∀ l' a, l.step op = .ok (l', a) → LAdmRun l' ops

/-- the descriptors the link and the running callback are responsible for -/
def Link.owned (l : Link) : List Nat := l.fd.toList ++ l.pending

/-- descriptors handed over to the application: `accept_cb` returned success -/
def keptStep (l : Link) : LOp → List Nat
  | .acceptReturn rc => if rc < 0 then [] else l.pending.take 1
  | _ => []

def kept (l : Link) : List LOp → List Nat
  | [] => []
  | op :: ops => keptStep l op ++ (match l.step op with | .ok (l', _) => kept l' ops | .error _ => [])

def closedFds (as : List LAct) : List Nat := as.filterMap fun a => match a with | .closeFd f => some f | _ => none
def newFds (as : List LAct) : List Nat := as.filterMap fun a => match a with | .opened f => some f | .accept f => some f | _ => none

theorem link_step {l : Link} {op : LOp} (hi : l.reg = l.fd.isSome) (ha : LAdm l op) :
    ∃ l' a, l.step op = .ok (l', a) ∧ l'.reg = l'.fd.isSome ∧
      (l.owned ++ newFds a).Perm (closedFds a ++ keptStep l op ++ l'.owned) := by
  obtain ⟨fd, reg, pending⟩ := l
  simp only at hi
  subst hi
  cases op with
  | «open» s r =>
    have hf : fd = none := ha
    subst hf
    cases s with
    | error e => exact ⟨_, _, rfl, rfl, by simp [newFds, closedFds, keptStep, Link.owned]⟩
    | ok f =>
      cases r with
      | true =>
        refine ⟨_, _, rfl, rfl, ?_⟩
        simp only [newFds, closedFds, keptStep, Link.owned]
        rw [List.perm_iff_count]; intro x; simp [List.count_cons]
      | false =>
        refine ⟨_, _, rfl, rfl, ?_⟩
        simp only [newFds, closedFds, keptStep, Link.owned]
        rw [List.perm_iff_count]; intro x; simp [List.count_cons]
  | close =>
    cases fd with
    | none => exact ⟨_, _, rfl, rfl, by simp [newFds, closedFds, keptStep, Link.owned]⟩
    | some f => exact ⟨_, _, rfl, rfl, by simp [newFds, closedFds, keptStep, Link.owned]⟩
  | event acc =>
    cases acc with
    | error e => exact ⟨_, _, rfl, rfl, by simp [newFds, closedFds, keptStep, Link.owned]⟩
    | ok f =>
      refine ⟨_, _, rfl, rfl, ?_⟩
      simp only [newFds, closedFds, keptStep, Link.owned]
      rw [List.perm_iff_count]; intro x; simp [List.count_cons, List.count_append]
  | acceptReturn rc =>
    cases pending with
    | nil => exact absurd rfl ha
    | cons f fs =>
      refine ⟨_, _, rfl, rfl, ?_⟩
      by_cases hn : rc < 0
      · simp only [newFds, closedFds, keptStep, Link.owned, if_pos hn]
        rw [List.perm_iff_count]; intro x; simp [List.count_cons, List.count_append]; omega
      · simp only [newFds, closedFds, keptStep, Link.owned, if_neg hn]
        rw [List.perm_iff_count]; intro x; simp [List.count_cons, List.count_append]; omega

/-- every socket a listening link creates or accepts is closed exactly once, handed over to the application
(`accept_cb` returned success), or still in use -/
theorem link_fds {ops : List LOp} (ha : LAdmRun Link.create ops) :
    ∃ l' as, Link.create.run ops = .ok (l', as) ∧
      (newFds as).Perm (closedFds as ++ kept Link.create ops ++ l'.fd.toList ++ l'.pending) := by
  have key : ∀ (ops : List LOp) (l : Link), l.reg = l.fd.isSome → LAdmRun l ops →
      ∃ l' as, l.run ops = .ok (l', as) ∧ (l.owned ++ newFds as).Perm (closedFds as ++ kept l ops ++ l'.owned) := by
    intro ops
    induction ops with
    | nil => intro l _ _; exact ⟨l, [], rfl, by simp [newFds, closedFds, kept]⟩
    | cons op ops ih =>
      intro l hi ha
      obtain ⟨l1, a, h1, hi1, p1⟩ := link_step hi ha.1
      obtain ⟨l2, as, h2, p2⟩ := ih l1 hi1 (ha.2 l1 a h1)
      refine ⟨l2, a ++ as, by simp only [Link.run, h1, bind_ok, h2], ?_⟩
      simp only [kept, h1]
      rw [List.perm_iff_count] at p1 p2 ⊢
      intro x
      have q1 := p1 x
      have q2 := p2 x
      simp only [newFds, closedFds, List.filterMap_append, List.count_append] at q1 q2 ⊢
      omega
  obtain ⟨l', as, h1, h2⟩ := key ops Link.create rfl ha
  refine ⟨l', as, h1, ?_⟩
  have : Link.create.owned = [] := rfl
  rw [this, List.nil_append] at h2
  simpa [Link.owned, List.append_assoc] using h2

/-- opening an open link is not rejected: if the socket can be created, the registration is corrupted -/
theorem link_open_twice_violated : ∃ l, Link.create.run [.open (.ok 5) true] = .ok (l, [.opened 5]) ∧
    l.step (.open (.ok 6) true) = .error .badptr := ⟨_, rfl, rfl⟩

/-! ### examples and defects -/

def admB (c : Conn) : Op → Bool
  | .send _ => !c.gone
  | .destroy => !c.gone
  | .ccm x => !c.gone && (x.msgType != MSGT_ID_RESP || c.ccmCb)
  | .fd _ wr _ _ => c.frames.isEmpty && c.reg && (!wr || c.wr)
  | .cbReturn rc => match c.frames with
    | [] => false
    | .afterRead _ _ :: _ => !(c.gone || c.fd.isNone) || rc == -EBADF
    | .afterCcm :: _ => !c.gone || decide (0 ≤ rc)
    | _ => true

theorem admB_ok {c : Conn} {op : Op} (h : admB c op = true) : Adm c op := by
  cases op with
  | send => simpa [admB, Adm] using h
  | destroy => simpa [admB, Adm] using h
  | ccm x =>
    simp only [admB, Bool.and_eq_true, Bool.not_eq_true', Bool.or_eq_true, bne_iff_ne] at h
    refine ⟨h.1, ?_⟩
    intro e
    rcases h.2 with h | h
    · exact absurd e h
    · exact h
  | fd rd wr rcv ok =>
    simp only [admB, Bool.and_eq_true, List.isEmpty_iff, Bool.or_eq_true, Bool.not_eq_true'] at h
    refine ⟨h.1.1, h.1.2, ?_⟩
    intro hw
    rcases h.2 with h | h
    · rw [hw] at h; cases h
    · exact h
  | cbReturn rc =>
    cases hf : c.frames with
    | nil => simp [admB, hf] at h
    | cons f fs =>
      refine ⟨f, fs, hf, ?_, ?_⟩
      · intro wr ok e hh
        subst e
        simp only [admB, hf, Bool.or_eq_true, Bool.not_eq_true', Bool.or_eq_false_iff, beq_iff_eq] at h
        rcases h with h | h
        · rcases hh with hh | hh
          · rw [h.1] at hh; cases hh
          · rw [hh] at h; simp at h
        · exact h
      · intro e hg
        subst e
        simpa [admB, hf, hg] using h

def admRunB (c : Conn) : List Op → Bool
  | [] => true
  | op :: ops => admB c op && match step c op with | .ok (c', _) => admRunB c' ops | .error _ => false

theorem admRunB_ok {c : Conn} {ops : List Op} (h : admRunB c ops = true) : AdmRun c ops := by
  induction ops generalizing c with
  | nil => trivial
  | cons op ops ih =>
    simp only [admRunB, Bool.and_eq_true] at h
    refine ⟨admB_ok h.1, ?_⟩
    intro c' a hs
    rw [hs] at h
    exact ih h.2

def conn5 : Conn := { fd := some 5, reg := true, wr := false, queue := [], cb := true, closedCb := true, ccmCb := true, frames := [], gone := false }

theorem conn5_created : create 5 true true true true = some conn5 := rfl

/-- a connection with traffic, destroyed in the read callback during which also `closed_cb` calls the destructor again -/
def life : List Op :=
  [.send ⟨1, [1]⟩, .send ⟨2, [2]⟩, .fd true true (.msg ⟨9, [9]⟩) true, .ccm ⟨0, MSGT_ID_RESP, some (some 4)⟩, .cbReturn 0, .cbReturn 0,
   .fd true true (.msg ⟨8, [8]⟩) true, .destroy, .destroy, .cbReturn 0, .cbReturn (-EBADF)]

theorem life_adm : AdmRun conn5 life := admRunB_ok (by decide +kernel)

example : (match run conn5 life with
    | .ok (c, tr) => c.gone && tr.flatten == [.deliver ⟨9, [9]⟩, .ccm, .sendTo (some 5) ⟨1, [1]⟩ true, .free ⟨1, [1]⟩,
        .deliver ⟨8, [8]⟩, .closeFd 5, .closed, .freeConn] && c.queue == [⟨2, [2]⟩]
    | _ => false) = true := by decide +kernel

/-- messages still queued when the connection is destroyed are never freed -/
theorem server_queue_leaked_violated : ∃ ops c tr, AdmRun conn5 ops ∧ run conn5 ops = .ok (c, tr) ∧ c.gone = true ∧
    sends ops = [⟨1, [1]⟩] ∧ freed tr.flatten = [] := by
  refine ⟨[.send ⟨1, [1]⟩, .destroy, .cbReturn 0], _, _, admRunB_ok (by decide +kernel), rfl, rfl, rfl, rfl⟩

/-- A read callback that passes a message to `ipa_server_conn_ccm` and returns its result, -1: the connection was
destroyed, but the event handler does not know it and uses the freed object if a write event is pending -/
theorem server_ccm_result_violated : ∃ ops c tr, AdmRun conn5 ops ∧ run conn5 ops = .ok (c, tr) ∧
    c.frames = [.afterRead true true] ∧ c.gone = true ∧ step c (.cbReturn (-1)) = .error .badptr := by
  refine ⟨[.send ⟨1, [1]⟩, .fd true true (.msg ⟨9, [9]⟩) true, .ccm ⟨-1, MSGT_ID_RESP, none⟩, .cbReturn 0], _, _,
    admRunB_ok (by decide +kernel), rfl, rfl, rfl, rfl⟩

/-- `ccm_cb` must not destroy the connection and return an error: the destructor runs on the freed object -/
theorem server_ccm_destroy_violated : ∃ ops c tr, AdmRun conn5 ops ∧ run conn5 ops = .ok (c, tr) ∧ c.gone = true ∧
    step c (.cbReturn (-1)) = .error .badptr := by
  refine ⟨[.fd true false (.msg ⟨9, [9]⟩) true, .ccm ⟨0, MSGT_ID_RESP, some (some 4)⟩, .destroy, .cbReturn 0], _, _,
    admRunB_ok (by decide +kernel), rfl, rfl, rfl⟩

/-- `ccm_cb` is not set by `ipa_server_conn_create`: the first ID RESP calls a null pointer unless the application
sets it -/
theorem server_ccm_null_violated {c : Conn} (hg : c.gone = false) (hc : c.ccmCb = false) (n : Nat) :
    ccm c ⟨0, MSGT_ID_RESP, some (some (n + 1))⟩ = .error .badptr := by
  rw [ccm_cases hg]
  simp [hc]

/-- a failed `send()` never closes the connection: the message is lost and nothing is reported -/
theorem server_send_error_violated {c : Conn} {f : Nat} (hg : c.gone = false) (hf : c.fd = some f) {m : Msg} {q : List Msg} (hq : c.queue = m :: q) (rcv : Rcv) :
    fdCb c false true rcv false = .ok ({ c with queue := q }, [.sendTo (some f) m false, .free m]) :=
  (server_write_event hg hf rcv false).1 m q hq

/-- a connection whose descriptor cannot be registered is not created, and its descriptor is not closed -/
theorem server_create_fails (f : Nat) (cb closedCb ccmCb : Bool) : create f cb closedCb ccmCb false = none := rfl

/-- an example for `link_fds`: opened, one connection accepted, one refused, closed -/
example : LAdmRun Link.create [.open (.ok 5) true, .event (.ok 6), .acceptReturn 0, .event (.ok 7), .acceptReturn (-1), .close] ∧
    (∃ l as, Link.create.run [.open (.ok 5) true, .event (.ok 6), .acceptReturn 0, .event (.ok 7), .acceptReturn (-1), .close] = .ok (l, as) ∧
      closedFds as = [7, 5] ∧ newFds as = [5, 6, 7]) := by
  refine ⟨?_, _, _, rfl, rfl, rfl⟩
  refine ⟨rfl, ?_⟩
  intro l a h; cases h
  refine ⟨⟨rfl, rfl⟩, ?_⟩
  intro l a h; cases h
  refine ⟨by simp [LAdm], ?_⟩
  intro l a h; cases h
  refine ⟨⟨rfl, rfl⟩, ?_⟩
  intro l a h; cases h
  refine ⟨by simp [LAdm], ?_⟩
  intro l a h; cases h
  exact ⟨trivial, fun l a h => by cases h; trivial⟩

end Verif.Ipa.Srv
