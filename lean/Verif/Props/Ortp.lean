import Verif.Ortp
import Verif.Spec.Ortp
/-!
# C60, C110-C113: RTP sockets
-/
namespace Verif.Ortp

theorem drop_snoc {α : Type} (f : α → Bool) (l : List α) (x : α) :
    (l ++ [x]).dropWhile (fun o => !f o) = if l.any f then l.dropWhile (fun o => !f o) ++ [x] else if f x then [x] else [] := by
  induction l with
  | nil => cases h : f x <;> simp [h]
  | cons a l ih => cases h : f a <;> simp [h, ih]

theorem take_snoc {α : Type} (f : α → Bool) (l : List α) (x : α) :
    (l ++ [x]).takeWhile (fun o => !f o) = if l.any f then l.takeWhile (fun o => !f o) else l ++ (if f x then [] else [x]) := by
  induction l with
  | nil => cases h : f x <;> simp [h]
  | cons a l ih =>
    cases h : f a
    · simp only [List.cons_append, List.takeWhile_cons, h, Bool.not_false, if_true, ih, List.any_cons, Bool.false_or]
      split <;> rfl
    · simp [h]

structure Inv (poll cb : Bool) (r : BitVec 32) (h : List Op) (s : Rs) : Prop where
  p : s.poll = poll
  c : s.hasCb = cb
  d : s.disabled = !h.any enables
  t : s.txTs = r + BitVec.ofNat 32 (ticks h)
  f : s.freed = h.any (fun o => decide (o = .free))
  g1 : s.rtpReg = (!poll && h.any listens && !h.any (fun o => decide (o = .free)))
  g2 : s.rtcpReg = s.rtpReg
  e : s.rtpReg = true → s.readEn = true
  x : s.rxTs = BitVec.ofNat 32 (rxTicks poll h)

theorem ticks_snoc (h : List Op) (op : Op) : ticks (h ++ [op]) = ticks h + if h.any enables then duration op else 0 := by
  have hd : ∀ op, enables op = true → duration op = 0 := by intro op; cases op <;> simp [enables, duration]
  have h0 : ∀ l : List Op, l.any enables = false → l.dropWhile (fun o => !enables o) = [] := by
    intro l hl
    induction l with
    | nil => rfl
    | cons a l ih =>
      simp only [List.any_cons, Bool.or_eq_false_iff] at hl
      simp [hl.1, ih hl.2]
  simp only [ticks, drop_snoc]
  cases ha : h.any enables
  · rw [h0 h ha]
    cases hx : enables op
    · simp
    · simp [hd op hx]
  · simp

theorem take_all {α : Type} (f : α → Bool) (l : List α) (h : l.any f = false) : l.takeWhile (fun o => !f o) = l := by
  induction l with
  | nil => rfl
  | cons a l ih =>
    simp only [List.any_cons, Bool.or_eq_false_iff] at h
    simp [h.1, ih h.2]

theorem drop_all {α : Type} (f : α → Bool) (l : List α) (h : l.any f = false) : l.dropWhile (fun o => !f o) = [] := by
  induction l with
  | nil => rfl
  | cons a l ih =>
    simp only [List.any_cons, Bool.or_eq_false_iff] at h
    simp [h.1, ih h.2]

theorem reads_snoc (poll : Bool) (h : List Op) (op : Op) : reads poll (h ++ [op]) =
    reads poll h + if !poll && h.any listens && !h.any (fun o => decide (o = .free)) && isReadable op then 1 else 0 := by
  cases poll
  · have hl : ∀ op, listens op = true → isReadable op = false := by intro op; cases op <;> simp [listens, isReadable]
    simp only [reads, take_snoc (fun o => decide (o = Op.free))]
    cases hf : h.any (fun o => decide (o = .free))
    · rw [take_all _ _ hf]
      simp only [Bool.false_eq_true, if_false]
      by_cases ho : op = .free
      · subst ho; simp [isReadable]
      · simp only [ho, decide_false, Bool.false_eq_true, if_false, drop_snoc]
        cases ha : h.any listens
        · rw [drop_all _ _ ha]
          cases hx : listens op
          · simp
          · simp [hl op hx]
        · cases hr : isReadable op <;> simp [hr]
    · simp
  · simp [reads]

theorem rxTicks_snoc (poll : Bool) (h : List Op) (op : Op) : rxTicks poll (h ++ [op]) = rxTicks poll h + userTicks op +
    if !poll && h.any listens && !h.any (fun o => decide (o = .free)) && isReadable op then 160 else 0 := by
  simp only [rxTicks, reads_snoc, List.map_append, List.sum_append, List.map_cons, List.map_nil, List.sum_cons, List.sum_nil]
  split <;> omega

theorem fdreg_ok {s s' : Rs} {ok1 ok2 b : Bool} (h : fdreg s ok1 ok2 = .ok (s', b)) (he : s.rtcpReg = s.rtpReg) :
    b = (ok1 && ok2) ∧ (ok1 = true → s.rtpReg = false) ∧
    s' = { s with readEn := true, rtpReg := s.rtpReg || b, rtcpReg := s.rtpReg || b } := by
  obtain ⟨p, d, t, x, g1, g2, e, c, j, a, m, f⟩ := s
  simp only at he
  subst he
  cases ok1 <;> cases ok2 <;> cases g2 <;> simp_all [fdreg, regRtp, regRtcp, unregRtp, bind, Except.bind, pure, Except.pure] <;>
    first | (obtain ⟨rfl, rfl⟩ := h; simp) | (obtain ⟨h1, rfl⟩ := h; simp [← h1]) | skip

theorem init_inv (poll cb : Bool) (r : BitVec 32) : Inv poll cb r [] (create poll cb r) := by
  constructor <;> first | rfl | skip
  · simp [ticks, create]
  · simp [create]
  · simp [create]
  · cases poll <;> rfl

theorem conn_inv {poll cb : Bool} {r : BitVec 32} {h : List Op} {s s' : Rs} {op : Op} {ok1 ok2 b : Bool} (I : Inv poll cb r h s)
    (hf : s.freed = false) (hen : enables op = true) (hli : listens op = (ok1 && ok2))
    (hs : (if s.poll = true then (.ok ({ s with disabled := false }, true) : Except Err (Rs × Bool))
      else fdreg { s with disabled := false } ok1 ok2) = .ok (s', b)) : Inv poll cb r (h ++ [op]) s' := by
  have hdur : duration op = 0 ∧ userTicks op = 0 ∧ isReadable op = false ∧ op ≠ .free := by
    cases op <;> simp_all [enables, duration, userTicks, isReadable]
  obtain ⟨hd, hu, hr, ho⟩ := hdur
  have hff := I.f
  rw [hf] at hff
  by_cases hp : s.poll = true
  · rw [if_pos hp] at hs
    obtain ⟨rfl, -⟩ := Prod.mk.inj (Except.ok.inj hs)
    have hp' : poll = true := I.p ▸ hp
    subst hp'
    constructor
    · exact I.p
    · exact I.c
    · simp [hen]
    · rw [ticks_snoc, hd]; simpa using I.t
    · simp only [List.any_append, ← hff]; simp [hf, ho]
    · simpa using I.g1
    · exact I.g2
    · exact I.e
    · rw [rxTicks_snoc, hu]; simpa using I.x
  · rw [if_neg hp] at hs
    obtain ⟨hb, h1, rfl⟩ := fdreg_ok hs I.g2
    have hp' : poll = false := by rw [← I.p]; simpa using hp
    subst hp'
    constructor
    · exact I.p
    · exact I.c
    · simp [hen]
    · rw [ticks_snoc, hd]; simpa using I.t
    · simp only [List.any_append, ← hff]; simp [hf, ho]
    · simp only [I.g1, List.any_append, ← hff, List.any_cons, List.any_nil, hli, hb, ho]; simp
    · rfl
    · intro; rfl
    · rw [rxTicks_snoc, hu, hr]; simpa using I.x

theorem step_inv {poll cb : Bool} {r : BitVec 32} {h : List Op} {s s' : Rs} {op : Op} {a : List Act} (I : Inv poll cb r h s)
    (hs : step s op = .ok (s', a)) : Inv poll cb r (h ++ [op]) s' := by
  have keep : ∀ op : Op, enables op = false → listens op = false → op ≠ .free →
      (h ++ [op]).any enables = h.any enables ∧ (h ++ [op]).any listens = h.any listens ∧
      (h ++ [op]).any (fun o => decide (o = .free)) = h.any (fun o => decide (o = .free)) := by
    intro op h1 h2 h3
    refine ⟨by simp [h1], by simp [h2], by simp [h3]⟩
  have notfreed : (∀ p, op ≠ .readable p) → s.freed = false := by
    intro hn
    cases hf : s.freed
    · rfl
    · cases op <;> simp_all [step]
  cases op with
  | connect port remote ok1 ok2 =>
    have hf := notfreed (by intro p; simp)
    simp only [step, hf, bind, Except.bind] at hs
    split at hs <;> try (simp at hs; done)
    cases hc : connect s port remote ok1 ok2 with
    | error e => rw [hc] at hs; simp at hs
    | ok v =>
      obtain ⟨s1, b⟩ := v
      rw [hc] at hs
      simp only [pure, Except.pure, Except.ok.injEq, Prod.mk.injEq] at hs
      obtain ⟨rfl, -⟩ := hs
      simp only [connect] at hc
      by_cases hp : port = 0
      · rw [if_pos hp] at hc
        obtain ⟨rfl, -⟩ := Prod.mk.inj (Except.ok.inj hc)
        obtain ⟨k1, k2, k3⟩ := keep (.connect port remote ok1 ok2) (by simp [enables, hp]) (by simp [listens, hp]) (by simp)
        refine ⟨I.p, I.c, by rw [k1]; exact I.d, ?_, by rw [k3]; exact I.f, by rw [k2, k3]; exact I.g1, I.g2, I.e, ?_⟩
        · rw [ticks_snoc]; simpa [duration] using I.t
        · rw [rxTicks_snoc]; simpa [userTicks, isReadable] using I.x
      · rw [if_neg hp] at hc
        cases remote
        · obtain ⟨rfl, -⟩ := Prod.mk.inj (Except.ok.inj hc)
          obtain ⟨k1, k2, k3⟩ := keep (.connect port false ok1 ok2) (by simp [enables]) (by simp [listens]) (by simp)
          refine ⟨I.p, I.c, by rw [k1]; exact I.d, ?_, by rw [k3]; exact I.f, by rw [k2, k3]; exact I.g1, I.g2, I.e, ?_⟩
          · rw [ticks_snoc]; simpa [duration] using I.t
          · rw [rxTicks_snoc]; simpa [userTicks, isReadable] using I.x
        · exact conn_inv I hf (by simp [enables, hp]) (by simp [listens, hp]) hc
  | autoconnect ok1 ok2 =>
    have hf := notfreed (by intro p; simp)
    simp only [step, hf, bind, Except.bind] at hs
    split at hs <;> try (simp at hs; done)
    cases hc : autoconnect s ok1 ok2 with
    | error e => rw [hc] at hs; simp at hs
    | ok v =>
      obtain ⟨s1, b⟩ := v
      rw [hc] at hs
      simp only [pure, Except.pure, Except.ok.injEq, Prod.mk.injEq] at hs
      obtain ⟨rfl, -⟩ := hs
      exact conn_inv I hf (by simp [enables]) (by simp [listens]) hc
  | skipped dur =>
    have hf := notfreed (by intro p; simp)
    simp only [step, hf, Bool.false_eq_true, if_false, Except.ok.injEq, Prod.mk.injEq] at hs
    obtain ⟨rfl, -⟩ := hs
    obtain ⟨k1, k2, k3⟩ := keep (.skipped dur) rfl rfl (by simp)
    have hd := I.d
    simp only [skipped]
    cases ha : h.any enables <;> simp only [ha] at hd <;> simp only [hd, Bool.not_false, Bool.not_true, Bool.false_eq_true, if_true, if_false]
    · refine ⟨I.p, I.c, by rw [k1]; exact I.d, ?_, by rw [k3]; exact I.f, by rw [k2, k3]; exact I.g1, I.g2, I.e, ?_⟩
      · rw [ticks_snoc, ha]; simpa using I.t
      · rw [rxTicks_snoc]; simpa [userTicks, isReadable] using I.x
    · refine ⟨I.p, I.c, by rw [k1, ha]; rfl, ?_, by rw [k3]; exact I.f, by rw [k2, k3]; exact I.g1, I.g2, I.e, ?_⟩
      · rw [ticks_snoc, ha]; simp [duration, I.t, BitVec.ofNat_add, BitVec.add_assoc]
      · rw [rxTicks_snoc]; simpa [userTicks, isReadable] using I.x
  | send payload dur marker alloc rc =>
    have hf := notfreed (by intro p; simp)
    simp only [step, hf, Bool.false_eq_true, if_false, Except.ok.injEq, Prod.mk.injEq] at hs
    obtain ⟨rfl, -⟩ := hs
    obtain ⟨k1, k2, k3⟩ := keep (.send payload dur marker alloc rc) rfl rfl (by simp)
    have hd := I.d
    simp only [sendFrame]
    cases ha : h.any enables <;> simp only [ha] at hd <;> simp only [hd, Bool.not_false, Bool.not_true, Bool.false_eq_true, if_true, if_false]
    · refine ⟨I.p, I.c, by rw [k1]; exact I.d, ?_, by rw [k3]; exact I.f, by rw [k2, k3]; exact I.g1, I.g2, I.e, ?_⟩
      · rw [ticks_snoc, ha]; simpa using I.t
      · rw [rxTicks_snoc]; simpa [userTicks, isReadable] using I.x
    · cases alloc
      · refine ⟨I.p, I.c, by rw [k1]; exact I.d, ?_, by rw [k3]; exact I.f, by rw [k2, k3]; exact I.g1, I.g2, I.e, ?_⟩
        · rw [ticks_snoc, ha]; simpa [duration] using I.t
        · rw [rxTicks_snoc]; simpa [userTicks, isReadable] using I.x
      · refine ⟨I.p, I.c, by rw [k1, ha]; rfl, ?_, by rw [k3]; exact I.f, by rw [k2, k3]; exact I.g1, I.g2, I.e, ?_⟩
        · rw [ticks_snoc, ha]; simp [duration, I.t, BitVec.ofNat_add, BitVec.add_assoc]
        · rw [rxTicks_snoc]; simpa [userTicks, isReadable] using I.x
  | poll p =>
    have hf := notfreed (by intro p; simp)
    simp only [step, hf, Bool.false_eq_true, if_false, Except.ok.injEq, Prod.mk.injEq] at hs
    obtain ⟨rfl, -⟩ := hs
    obtain ⟨k1, k2, k3⟩ := keep (.poll p) rfl rfl (by simp)
    refine ⟨I.p, I.c, by rw [k1]; exact I.d, ?_, by rw [k3]; exact I.f, by rw [k2, k3]; exact I.g1, I.g2, I.e, ?_⟩
    · rw [ticks_snoc]; simpa [duration] using I.t
    · rw [rxTicks_snoc]; simpa [userTicks, isReadable] using I.x
  | readable p =>
    obtain ⟨k1, k2, k3⟩ := keep (.readable p) rfl rfl (by simp)
    simp only [step] at hs
    cases hr : s.rtpReg
    · simp only [hr, Bool.false_and, Bool.false_eq_true, if_false, Except.ok.injEq, Prod.mk.injEq] at hs
      obtain ⟨rfl, -⟩ := hs
      refine ⟨I.p, I.c, by rw [k1]; exact I.d, ?_, by rw [k3]; exact I.f, by rw [k2, k3]; exact I.g1, I.g2, I.e, ?_⟩
      · rw [ticks_snoc]; simpa [duration] using I.t
      · have := I.g1; rw [hr] at this
        rw [rxTicks_snoc, ← this]; simpa [userTicks] using I.x
    · have hp : poll = false := by
        have := I.g1; rw [hr] at this
        revert this; cases poll <;> simp
      have hsp : s.poll = false := by rw [I.p, hp]
      simp only [hr, I.e hr, Bool.and_self, if_true, fdCb, hsp, Bool.false_eq_true, if_false, Except.ok.injEq, Prod.mk.injEq] at hs
      obtain ⟨rfl, -⟩ := hs
      refine ⟨hp.symm, I.c, by rw [k1]; exact I.d, ?_, by rw [k3]; exact I.f, by rw [k2, k3, ← I.g1, hr], I.g2.trans hr, fun _ => rfl, ?_⟩
      · rw [ticks_snoc]; simpa [duration] using I.t
      · have := I.g1; rw [hr] at this
        rw [rxTicks_snoc, ← this]; simp [userTicks, isReadable, I.x, BitVec.ofNat_add]
  | setParam param val =>
    have hf := notfreed (by intro p; simp)
    simp only [step, hf, Bool.false_eq_true, if_false, Except.ok.injEq, Prod.mk.injEq] at hs
    obtain ⟨rfl, -⟩ := hs
    obtain ⟨k1, k2, k3⟩ := keep (.setParam param val) rfl rfl (by simp)
    have e : ∀ {α : Type} (f : Rs → α), (∀ j a m, f { s with jit := j, adap := a, comp := m } = f s) → f (setParam s param val).1 = f s := by
      intro α f hf
      simp only [setParam]
      split
      · split <;> split
        · exact hf _ _ _
        · exact hf _ _ _
        · exact hf _ _ _
        · exact hf _ _ _
      · rfl
    refine ⟨(e Rs.poll fun _ _ _ => rfl).trans I.p, (e Rs.hasCb fun _ _ _ => rfl).trans I.c, ?_, ?_, ?_, ?_, ?_, ?_, ?_⟩
    · rw [k1]; exact (e Rs.disabled fun _ _ _ => rfl).trans I.d
    · rw [ticks_snoc, (e Rs.txTs fun _ _ _ => rfl)]; simpa [duration] using I.t
    · rw [k3]; exact (e Rs.freed fun _ _ _ => rfl).trans I.f
    · rw [k2, k3]; exact (e Rs.rtpReg fun _ _ _ => rfl).trans I.g1
    · rw [(e Rs.rtpReg fun _ _ _ => rfl), (e Rs.rtcpReg fun _ _ _ => rfl)]; exact I.g2
    · rw [(e Rs.rtpReg fun _ _ _ => rfl), (e Rs.readEn fun _ _ _ => rfl)]; exact I.e
    · rw [rxTicks_snoc, (e Rs.rxTs fun _ _ _ => rfl)]; simpa [userTicks, isReadable] using I.x
  | userTs d =>
    have hf := notfreed (by intro p; simp)
    simp only [step, hf, Bool.false_eq_true, if_false, Except.ok.injEq, Prod.mk.injEq] at hs
    obtain ⟨rfl, -⟩ := hs
    obtain ⟨k1, k2, k3⟩ := keep (.userTs d) rfl rfl (by simp)
    refine ⟨I.p, I.c, by rw [k1]; exact I.d, ?_, by rw [k3, ← I.f, hf], by rw [k2, k3]; exact I.g1, I.g2, I.e, ?_⟩
    · rw [ticks_snoc]; simpa [duration] using I.t
    · rw [rxTicks_snoc]; simp [userTicks, isReadable, I.x, BitVec.ofNat_add]
  | free =>
    have hf := notfreed (by intro p; simp)
    have hs' : s' = { s with rtpReg := false, rtcpReg := false, freed := true } := by
      have hg2 := I.g2
      obtain ⟨p, d, t, x, g1, g2, e, c, j, a, m, f⟩ := s
      simp only at hg2 hf
      subst hg2 hf
      cases g2 <;> simp [step, free, unregRtp, unregRtcp, bind, Except.bind, pure, Except.pure] at hs <;> exact hs.1.symm
    subst hs'
    have k1 : (h ++ [Op.free]).any enables = h.any enables := by simp [enables]
    have k3 : (h ++ [Op.free]).any (fun o => decide (o = .free)) = true := by simp
    refine ⟨I.p, I.c, by rw [k1]; exact I.d, ?_, by rw [k3], by rw [k3]; simp, rfl, by simp, ?_⟩
    · rw [ticks_snoc]; simpa [duration] using I.t
    · rw [rxTicks_snoc]; simpa [userTicks, isReadable] using I.x

theorem run_inv_aux {poll cb : Bool} {r : BitVec 32} {ops h : List Op} {s s' : Rs} {a : List Act} (I : Inv poll cb r h s)
    (hs : run s ops = .ok (s', a)) : Inv poll cb r (h ++ ops) s' := by
  induction ops generalizing h s a with
  | nil =>
    obtain ⟨rfl, -⟩ := Prod.mk.inj (Except.ok.inj hs)
    simpa using I
  | cons op ops ih =>
    simp only [run, bind, Except.bind] at hs
    cases h1 : step s op with
    | error e => rw [h1] at hs; simp at hs
    | ok v =>
      obtain ⟨s1, a1⟩ := v
      rw [h1] at hs
      simp only at hs
      cases h2 : run s1 ops with
      | error e => rw [h2] at hs; simp at hs
      | ok v2 =>
        obtain ⟨s2, a2⟩ := v2
        rw [h2] at hs
        simp only [pure, Except.pure, Except.ok.injEq, Prod.mk.injEq] at hs
        obtain ⟨rfl, -⟩ := hs
        have := ih (step_inv I h1) h2
        simpa using this

theorem run_inv {poll cb : Bool} {r : BitVec 32} {h : List Op} {s : Rs} {a : List Act}
    (hs : run (create poll cb r) h = .ok (s, a)) : Inv poll cb r h s := by
  simpa using run_inv_aux (init_inv poll cb r) hs

/-! ### C60 -/

/-- C60: the frame sent after the history `h` carries the initial time stamp plus the durations of all frames sent and
skipped since the socket was connected, modulo 2^32; a socket that was never connected sends nothing -/
theorem C60_timestamp (poll cb : Bool) (r : BitVec 32) (h : List Op) (s s' : Rs) (a b : List Act)
    (hr : run (create poll cb r) h = .ok (s, a)) (payload : List Byte) (dur : Nat) (marker alloc : Bool) (rc : Int)
    (hs : step s (.send payload dur marker alloc rc) = .ok (s', b)) :
    b = if h.any enables ∧ alloc = true then [.send (r + BitVec.ofNat 32 (ticks h)) marker payload] else [] := by
  have I := run_inv hr
  have hf : s.freed = false := by cases hf : s.freed <;> simp_all [step]
  simp only [step, hf, Bool.false_eq_true, if_false, Except.ok.injEq, Prod.mk.injEq] at hs
  obtain ⟨-, rfl⟩ := hs
  simp only [sendFrame, I.d, I.t]
  cases h.any enables <;> cases alloc <;> simp

/-- C60: nothing else sends frames -/
theorem C60_only_send (s s' : Rs) (op : Op) (b : List Act) (hs : step s op = .ok (s', b)) (ho : ∀ p d m al rc, op ≠ .send p d m al rc)
    (t : BitVec 32) (m : Bool) (p : List Byte) : .send t m p ∉ b := by
  have hrecv : ∀ s p' q, Act.send t m q ∉ (recvWithCb s p').1 := by
    intro s p' q
    cases p' with
    | none => simp [recvWithCb]
    | some p' => simp only [recvWithCb]; split <;> simp
  intro hm
  cases op with
  | readable p =>
    simp only [step] at hs
    split at hs
    · have e := Except.ok.inj hs
      rw [fdCb] at e
      split at e
      · cases e; simp at hm
      · cases e; exact hrecv _ _ _ hm
    · obtain ⟨-, rfl⟩ := Prod.mk.inj (Except.ok.inj hs)
      simp at hm
  | send a b c d e => exact ho _ _ _ _ _ rfl
  | poll p =>
    simp only [step] at hs
    split at hs
    · simp at hs
    · obtain ⟨-, rfl⟩ := Prod.mk.inj (Except.ok.inj hs)
      simp only [pollSock] at hm
      split at hm
      · simp at hm
      · split at hm <;> exact hrecv _ _ _ hm
  | connect a b c d =>
    simp only [step, bind, Except.bind] at hs
    split at hs
    · simp at hs
    · split at hs
      · simp at hs
      · obtain ⟨-, rfl⟩ := Prod.mk.inj (Except.ok.inj hs)
        simp at hm
  | autoconnect a b =>
    simp only [step, bind, Except.bind] at hs
    split at hs
    · simp at hs
    · split at hs
      · simp at hs
      · obtain ⟨-, rfl⟩ := Prod.mk.inj (Except.ok.inj hs)
        simp at hm
  | free =>
    have hb : b = [.closed] := by
      simp only [step, free, bind, Except.bind, unregRtp, unregRtcp, pure, Except.pure] at hs
      cases h1 : s.rtpReg <;> cases h2 : s.rtcpReg <;> cases h3 : s.freed <;> simp [h1, h2, h3] at hs <;> exact hs.2.symm
    rw [hb] at hm
    simp at hm
  | _ =>
    simp only [step] at hs
    split at hs
    · simp at hs
    · obtain ⟨-, rfl⟩ := Prod.mk.inj (Except.ok.inj hs)
      simp at hm

theorem run_mem {h : List Op} {s0 s : Rs} {a : List Act} {x : Act} (hr : run s0 h = .ok (s, a)) (hx : x ∈ a) :
    ∃ pre op post s1 a1 s2 b, h = pre ++ op :: post ∧ run s0 pre = .ok (s1, a1) ∧ step s1 op = .ok (s2, b) ∧ x ∈ b := by
  induction h generalizing s0 a with
  | nil =>
    obtain ⟨-, rfl⟩ := Prod.mk.inj (Except.ok.inj hr)
    simp at hx
  | cons op ops ih =>
    simp only [run, bind, Except.bind] at hr
    cases h1 : step s0 op with
    | error e => rw [h1] at hr; simp at hr
    | ok v =>
      obtain ⟨s1, a1⟩ := v
      rw [h1] at hr
      simp only at hr
      cases h2 : run s1 ops with
      | error e => rw [h2] at hr; simp at hr
      | ok v2 =>
        obtain ⟨s2, a2⟩ := v2
        rw [h2] at hr
        simp only [pure, Except.pure, Except.ok.injEq, Prod.mk.injEq] at hr
        obtain ⟨rfl, rfl⟩ := hr
        rcases List.mem_append.1 hx with hx | hx
        · exact ⟨[], op, ops, s0, [], s1, a1, rfl, rfl, h1, hx⟩
        · obtain ⟨pre, op', post, t1, b1, t2, b, e1, e2, e3, e4⟩ := ih h2 hx
          refine ⟨op :: pre, op', post, t1, a1 ++ b1, t2, b, by rw [e1]; rfl, ?_, e3, e4⟩
          simp only [run, bind, Except.bind, h1, e2, pure, Except.pure]

theorem free_acts {s s' : Rs} {b : List Act} (hs : step s .free = .ok (s', b)) : b = [.closed] := by
  simp only [step, free, bind, Except.bind, unregRtp, unregRtcp, pure, Except.pure] at hs
  cases h1 : s.rtpReg <;> cases h2 : s.rtcpReg <;> cases h3 : s.freed <;> simp [h1, h2, h3] at hs <;> exact hs.2.symm

/-! ### C110 -/

/-- C110: before the socket is connected, nothing is sent or received; port 0 does not connect it -/
theorem C110_disabled (poll cb : Bool) (r : BitVec 32) (h : List Op) (s : Rs) (a : List Act)
    (hr : run (create poll cb r) h = .ok (s, a)) (he : h.any enables = false) :
    (∀ x ∈ a, x = .closed) ∧ s.txTs = r ∧
    (∀ p d m al rc, sendFrame s p d m al rc = (s, [], 0)) ∧ (∀ d, skipped s d = s) ∧ (∀ p, pollSock s p = ([], 0)) ∧
    (∀ remote ok1 ok2, connect s 0 remote ok1 ok2 = .ok (s, true)) := by
  have I := run_inv hr
  have hd : s.disabled = true := by rw [I.d, he]; rfl
  refine ⟨?_, ?_, ?_, ?_, ?_, ?_⟩
  · intro x hx
    obtain ⟨pre, op, post, s1, a1, s2, b, e1, e2, e3, e4⟩ := run_mem hr hx
    have J := run_inv e2
    have hep : pre.any enables = false ∧ enables op = false := by
      rw [e1] at he
      simp only [List.any_append, List.any_cons, Bool.or_eq_false_iff] at he
      exact ⟨he.1, he.2.1⟩
    have hd1 : s1.disabled = true := by rw [J.d, hep.1]; rfl
    have hl : ∀ l : List Op, l.any enables = false → l.any listens = false := by
      intro l hl
      rw [List.any_eq_false] at hl ⊢
      intro o ho
      have := hl o ho
      cases o <;> simp_all [enables, listens]
    have hreg : s1.rtpReg = false := by rw [J.g1, hl _ hep.1]; simp
    cases op with
    | free => rw [free_acts e3] at e4; simpa using e4
    | readable p =>
      simp only [step, hreg, Bool.false_and, Bool.false_eq_true, if_false, Except.ok.injEq, Prod.mk.injEq] at e3
      rw [← e3.2] at e4; simp at e4
    | connect a b c d =>
      simp only [step, bind, Except.bind] at e3
      split at e3
      · simp at e3
      · split at e3
        · simp at e3
        · obtain ⟨-, rfl⟩ := Prod.mk.inj (Except.ok.inj e3)
          simp at e4
    | autoconnect a b => simp [enables] at hep
    | poll p =>
      simp only [step, pollSock, hd1] at e3
      split at e3
      · simp at e3
      · obtain ⟨-, rfl⟩ := Prod.mk.inj (Except.ok.inj e3)
        simp at e4
    | send _ _ _ _ _ =>
      simp only [step, sendFrame, hd1] at e3
      split at e3
      · simp at e3
      · obtain ⟨-, rfl⟩ := Prod.mk.inj (Except.ok.inj e3)
        simp at e4
    | _ =>
      simp only [step] at e3
      split at e3
      · simp at e3
      · obtain ⟨-, rfl⟩ := Prod.mk.inj (Except.ok.inj e3)
        simp at e4
  · have h0 : ticks h = 0 := by simp [ticks, drop_all enables h he]
    rw [I.t, h0]; simp
  · intros; simp [sendFrame, hd]
  · intros; simp [skipped, hd]
  · intros; simp [pollSock, hd]
  · intros; simp [connect]

/-! ### C111 -/

/-- C111, partially: a socket that is connected at most once, or is in polling mode, never corrupts the list of the select
loop, whatever fails -/
theorem C111_registration_partial (poll cb : Bool) (r : BitVec 32) (h : List Op) (hp : poll = true ∨ h.countP enables ≤ 1)
    (hu : noUseAfterFree h = true) : ∃ s a, run (create poll cb r) h = .ok (s, a) := by
  have gen : ∀ (post pre : List Op) (s : Rs), Inv poll cb r pre s → (poll = true ∨ (pre ++ post).countP enables ≤ 1) →
      noUseAfterFree post = true → (s.freed = true → post.all isReadable = true) → ∃ s' a, run s post = .ok (s', a) := by
    intro post
    induction post with
    | nil => intro pre s _ _ _ _; exact ⟨s, [], rfl⟩
    | cons op post ih =>
      intro pre s I hc hn hf
      have hstep : ∃ s1 a1, step s op = .ok (s1, a1) ∧ (s1.freed = true → post.all isReadable = true) := by
        cases hfr : s.freed
        · have conn : ∀ (ok1 ok2 : Bool), enables op = true → ∃ v : Rs × Bool, (if s.poll = true then
              (.ok ({ s with disabled := false }, true) : Except Err (Rs × Bool)) else fdreg { s with disabled := false } ok1 ok2) = .ok v ∧
              v.1.freed = false := by
            intro ok1 ok2 he
            by_cases hps : s.poll = true
            · rw [if_pos hps]; exact ⟨_, rfl, hfr⟩
            · rw [if_neg hps]
              have hc' : (pre ++ op :: post).countP enables ≤ 1 := by
                rcases hc with hc | hc
                · rw [← I.p] at hc; exact absurd hc hps
                · exact hc
              rw [List.countP_append, List.countP_cons, if_pos he] at hc'
              have h0 : pre.countP enables = 0 := by omega
              have hl : pre.any listens = false := by
                rw [List.any_eq_false]
                intro o ho hlo
                rw [List.countP_eq_zero] at h0
                have := h0 o ho
                cases o <;> simp_all [enables, listens]
              have hreg : s.rtpReg = false := by rw [I.g1, hl]; simp
              have hreg2 : s.rtcpReg = false := I.g2.trans hreg
              cases ok1 <;> cases ok2 <;>
                simp [fdreg, regRtp, regRtcp, unregRtp, bind, Except.bind, pure, Except.pure, hreg, hreg2, hfr]
          cases op with
          | readable p =>
            simp only [step]
            split
            · simp only [fdCb]
              split <;> exact ⟨_, _, rfl, fun h => absurd h (by simp [hfr])⟩
            · exact ⟨_, _, rfl, fun h => absurd h (by simp [hfr])⟩
          | connect port remote ok1 ok2 =>
            simp only [step, hfr, Bool.false_eq_true, if_false, bind, Except.bind, connect]
            by_cases hp : port = 0
            · rw [if_pos hp]; exact ⟨_, _, rfl, fun h => absurd h (by simp [hfr])⟩
            · rw [if_neg hp]
              cases remote
              · exact ⟨_, _, rfl, fun h => absurd h (by simp [hfr])⟩
              · obtain ⟨v, hv, hvf⟩ := conn ok1 ok2 (by simp [enables, hp])
                simp only [Bool.not_true, Bool.false_eq_true, if_false]
                simp only [hfr] at hv; rw [hv]; exact ⟨_, _, rfl, fun h => absurd h (by simp [hvf])⟩
          | autoconnect ok1 ok2 =>
            simp only [step, hfr, Bool.false_eq_true, if_false, bind, Except.bind, autoconnect]
            obtain ⟨v, hv, hvf⟩ := conn ok1 ok2 (by simp [enables])
            simp only [hfr] at hv; rw [hv]; exact ⟨_, _, rfl, fun h => absurd h (by simp [hvf])⟩
          | skipped d =>
            simp only [step, hfr, Bool.false_eq_true, if_false, skipped]
            split <;> exact ⟨_, _, rfl, fun h => absurd h (by simp [hfr])⟩
          | send _ _ _ _ _ =>
            simp only [step, hfr, Bool.false_eq_true, if_false, sendFrame]
            split
            · exact ⟨_, _, rfl, fun h => absurd h (by simp [hfr])⟩
            · split <;> exact ⟨_, _, rfl, fun h => absurd h (by simp [hfr])⟩
          | poll p =>
            simp only [step, hfr, Bool.false_eq_true, if_false]
            exact ⟨_, _, rfl, fun h => absurd h (by simp [hfr])⟩
          | setParam p v =>
            simp only [step, hfr, Bool.false_eq_true, if_false]
            refine ⟨_, _, rfl, fun h => absurd h ?_⟩
            simp only [setParam]
            split
            · split <;> split <;> simp [hfr]
            · simp [hfr]
          | userTs d =>
            simp only [step, hfr, Bool.false_eq_true, if_false]
            exact ⟨_, _, rfl, fun h => absurd h (by simp [hfr])⟩
          | free =>
            simp only [noUseAfterFree, if_true, Bool.and_eq_true] at hn
            have h2 := I.g2
            cases hg : s.rtpReg <;> rw [hg] at h2 <;>
              simp [step, hfr, free, unregRtp, unregRtcp, bind, Except.bind, pure, Except.pure, hg, h2] <;>
              simpa using hn.1
        · have hall := hf hfr
          simp only [List.all_cons, Bool.and_eq_true] at hall
          cases op with
          | readable p =>
            have hreg : s.rtpReg = false := by rw [I.g1, ← I.f, hfr]; simp
            simp only [step, hreg]
            exact ⟨_, _, rfl, fun _ => hall.2⟩
          | _ => simp [isReadable] at hall
      obtain ⟨s1, a1, h1, hf1⟩ := hstep
      have hn' : noUseAfterFree post = true := by
        simp only [noUseAfterFree, Bool.and_eq_true] at hn; exact hn.2
      obtain ⟨s2, a2, h2⟩ := ih (pre ++ [op]) s1 (step_inv I h1) (by simpa using hc) hn' hf1
      exact ⟨s2, a1 ++ a2, by simp only [run, bind, Except.bind, h1, h2, pure, Except.pure]⟩
  exact gen h [] _ (init_inv poll cb r) (by simpa using hp) hu (by simp [create])

/-- C111 is false: changing the remote address of a connected socket, which is what a second call of
`osmo_rtp_socket_connect()` is for (see the comment in the code), registers the descriptors twice -/
theorem C111_reconnect_violated (cb : Bool) (r : BitVec 32) (h : List Op) (s : Rs) (a : List Act) (hr : run (create false cb r) h = .ok (s, a))
    (hl : h.any listens = true) (hf : Op.free ∉ h) (port : Nat) (hp : port ≠ 0) (ok2 : Bool) :
    step s (.connect port true true ok2) = .error .relist ∧ step s (.autoconnect true ok2) = .error .relist := by
  have I := run_inv hr
  have hnf : h.any (fun o => decide (o = .free)) = false := by
    rw [List.any_eq_false]; intro o ho; simp only [decide_eq_true_eq]; intro e; exact hf (e ▸ ho)
  have hfr : s.freed = false := by rw [I.f, hnf]
  have hg : s.rtpReg = true := by rw [I.g1, hl, hnf]; rfl
  have hps : s.poll = false := I.p
  constructor <;>
    simp [step, hfr, connect, autoconnect, hp, hps, fdreg, regRtp, hg, bind, Except.bind]

/-- C111: after `osmo_rtp_socket_free()` no descriptor is left in the select loop, and no callback is called; before it both
descriptors are registered exactly if the socket was connected successfully and is not in polling mode -/
theorem C111_registered (poll cb : Bool) (r : BitVec 32) (h : List Op) (s : Rs) (a : List Act) (hr : run (create poll cb r) h = .ok (s, a)) :
    s.rtpReg = (!poll && h.any listens && !h.any (fun o => decide (o = .free))) ∧ s.rtcpReg = s.rtpReg ∧
    (Op.free ∈ h → s.rtpReg = false ∧ ∀ p, step s (.readable p) = .ok (s, [])) := by
  have I := run_inv hr
  refine ⟨I.g1, I.g2, ?_⟩
  intro hf
  have hg : s.rtpReg = false := by
    have : h.any (fun o => decide (o = .free)) = true := by
      rw [List.any_eq_true]; exact ⟨_, hf, by simp⟩
    rw [I.g1, this]; simp
  exact ⟨hg, fun p => by simp [step, hg]⟩

/-! ### C112 -/

theorem recv_acts (s : Rs) (p : Option Pkt) : (recvWithCb s p).1 = .query s.rxTs :: delivered s.hasCb p := by
  cases p with
  | none => rfl
  | some p =>
    have : ∀ l : List Byte, decide (0 < l.length) = decide (l ≠ []) := by intro l; cases l <;> simp
    simp only [recvWithCb, delivered, this]
    cases s.hasCb <;> simp

/-- C112: reception.  A read event of a listening socket, or a poll of a connected one, asks oRTP for one packet with the
receive clock, and passes it to the callback, unless it is empty, with payload, sequence number, time stamp and marker
unchanged; other read events and polls do nothing. -/
theorem C112_receive (poll cb : Bool) (r : BitVec 32) (h : List Op) (s s1 s2 : Rs) (a b c : List Act) (p : Option Pkt)
    (hr : run (create poll cb r) h = .ok (s, a)) (h1 : step s (.readable p) = .ok (s1, b)) (h2 : step s (.poll p) = .ok (s2, c)) :
    b = (if poll = false ∧ h.any listens = true ∧ Op.free ∉ h then .query (BitVec.ofNat 32 (rxTicks poll h)) :: delivered cb p else []) ∧
    c = (if h.any enables then .query (BitVec.ofNat 32 (rxTicks poll h)) :: delivered cb p else []) ∧
    (pollSock s p).2 = (if h.any enables = true ∧ ∃ q, p = some q ∧ q.payload ≠ [] then 1 else 0) := by
  have I := run_inv hr
  have hmem : h.any (fun o => decide (o = .free)) = decide (Op.free ∈ h) := by
    by_cases hm : Op.free ∈ h
    · simp only [hm, decide_true]; rw [List.any_eq_true]; exact ⟨_, hm, by simp⟩
    · simp only [hm, decide_false]; rw [List.any_eq_false]; intro o ho; simp only [decide_eq_true_eq]; intro e; exact hm (e ▸ ho)
  refine ⟨?_, ?_, ?_⟩
  · simp only [step] at h1
    cases hg : s.rtpReg
    · have hgg := I.g1
      rw [hg, hmem] at hgg
      rw [if_neg]
      · simp only [hg, Bool.false_and, Bool.false_eq_true, if_false, Except.ok.injEq, Prod.mk.injEq] at h1
        exact h1.2.symm
      · rintro ⟨e1, e2, e3⟩
        rw [e1, e2] at hgg
        simp [e3] at hgg
    · have hgg := I.g1
      rw [hg, hmem] at hgg
      have hpoll : poll = false ∧ h.any listens = true ∧ Op.free ∉ h := by
        refine ⟨?_, ?_, ?_⟩
        · revert hgg; cases poll <;> simp
        · revert hgg; cases h.any listens <;> simp
        · revert hgg; by_cases hm : Op.free ∈ h <;> simp [hm]
      rw [if_pos hpoll]
      have hps : s.poll = false := I.p.trans hpoll.1
      simp only [hg, I.e hg, Bool.and_self, if_true, fdCb, hps, Bool.false_eq_true, if_false, Except.ok.injEq, Prod.mk.injEq] at h1
      rw [← h1.2, recv_acts, I.x, I.c]
  · have hf : s.freed = false := by
      cases hf : s.freed
      · rfl
      · simp [step, hf] at h2
    simp only [step, hf, Bool.false_eq_true, if_false, Except.ok.injEq, Prod.mk.injEq, pollSock, I.d] at h2
    rw [← h2.2]
    cases h.any enables
    · simp
    · simp only [Bool.not_true, Bool.false_eq_true, if_false, if_true]
      split <;> simp only [recv_acts, I.x, I.c]
  · simp only [pollSock, I.d]
    cases h.any enables
    · simp
    · cases p with
      | none => simp [recvWithCb]
      | some q =>
        simp only [recvWithCb, Bool.not_true, Bool.false_eq_true, if_false]
        by_cases hq : q.payload = []
        · simp [hq]
        · have : 0 < q.payload.length := List.length_pos_iff.2 hq
          simp [hq, this]

/-! ### C113 -/

theorem step_params {s s' : Rs} {op : Op} {a : List Act} (hs : step s op = .ok (s', a)) :
    s'.jit = (match setsJit op with | some v => decide (v ≠ 0) | none => s.jit) ∧
    s'.adap = (match setsAdap op with | some v => decide (v ≠ 0) | none => s.adap) := by
  have fd : ∀ {s s' : Rs} {o1 o2 b : Bool}, fdreg s o1 o2 = .ok (s', b) → s'.jit = s.jit ∧ s'.adap = s.adap := by
    intro s s' o1 o2 b h
    cases o1 <;> cases o2 <;> cases h1 : s.rtpReg <;> cases h2 : s.rtcpReg <;>
      simp [fdreg, regRtp, regRtcp, unregRtp, bind, Except.bind, pure, Except.pure, h1, h2] at h <;> (rw [← h.1]; exact ⟨rfl, rfl⟩)
  cases op with
  | setParam p v =>
    simp only [step] at hs
    split at hs
    · simp at hs
    · obtain ⟨rfl, -⟩ := Prod.mk.inj (Except.ok.inj hs)
      match p with
      | 0 => exact ⟨rfl, rfl⟩
      | 1 => by_cases hv : v = 0 <;> simp [setParam, hv, setsJit, setsAdap]
      | 2 => by_cases hv : v = 0 <;> simp [setParam, hv, setsJit, setsAdap]
      | n + 3 =>
        have : setParam s (n + 3) v = (s, none) := by simp only [setParam]; rw [if_neg (by omega)]
        rw [this]; exact ⟨rfl, rfl⟩
  | connect port remote o1 o2 =>
    simp only [step, bind, Except.bind] at hs
    split at hs
    · simp at hs
    · split at hs
      · simp at hs
      · rename_i v hv
        obtain ⟨rfl, -⟩ := Prod.mk.inj (Except.ok.inj hs)
        simp only [connect] at hv
        split at hv
        · cases hv; exact ⟨rfl, rfl⟩
        · split at hv
          · cases hv; exact ⟨rfl, rfl⟩
          · split at hv
            · cases hv; exact ⟨rfl, rfl⟩
            · have k := fd (s := { s with disabled := false }) (b := v.2) hv; exact k
  | autoconnect o1 o2 =>
    simp only [step, bind, Except.bind] at hs
    split at hs
    · simp at hs
    · split at hs
      · simp at hs
      · rename_i v hv
        obtain ⟨rfl, -⟩ := Prod.mk.inj (Except.ok.inj hs)
        simp only [autoconnect] at hv
        split at hv
        · cases hv; exact ⟨rfl, rfl⟩
        · have k := fd (s := { s with disabled := false }) (b := v.2) hv; exact k
  | readable p =>
    simp only [step] at hs
    split at hs
    · have e := Except.ok.inj hs
      rw [fdCb] at e
      split at e
      · cases e; exact ⟨rfl, rfl⟩
      · cases e; exact ⟨rfl, rfl⟩
    · cases hs; exact ⟨rfl, rfl⟩
  | free =>
    simp only [step, free, bind, Except.bind, unregRtp, unregRtcp, pure, Except.pure] at hs
    cases h1 : s.rtpReg <;> cases h2 : s.rtcpReg <;> cases h3 : s.freed <;> simp [h1, h2, h3] at hs <;>
      (rw [← hs.1]; exact ⟨rfl, rfl⟩)
  | skipped d =>
    simp only [step, skipped] at hs
    split at hs
    · simp at hs
    · split at hs <;> cases hs <;> exact ⟨rfl, rfl⟩
  | send _ _ _ _ _ =>
    simp only [step, sendFrame] at hs
    split at hs
    · simp at hs
    · split at hs
      · cases hs; exact ⟨rfl, rfl⟩
      · split at hs <;> cases hs <;> exact ⟨rfl, rfl⟩
  | poll p =>
    simp only [step] at hs
    split at hs
    · simp at hs
    · cases hs; exact ⟨rfl, rfl⟩
  | userTs d =>
    simp only [step] at hs
    split at hs
    · simp at hs
    · cases hs; exact ⟨rfl, rfl⟩

/-- C113: the jitter buffer and its adaptive mode are in the state last asked for, and the result tells which -/
theorem C113_params (poll cb : Bool) (r : BitVec 32) (h : List Op) (s : Rs) (a : List Act) (hr : run (create poll cb r) h = .ok (s, a)) :
    s.jit = (match last setsJit h with | some v => decide (v ≠ 0) | none => true) ∧
    s.adap = (match last setsAdap h with | some v => decide (v ≠ 0) | none => false) ∧
    (∀ v, (setParam s 1 v).2 = some (decide (v ≠ 0)) ∧ (setParam s 2 v).2 = some (decide (v ≠ 0)) ∧
      (v ≠ 0 → (setParam s 1 v).1.comp = v ∧ (setParam s 2 v).1.comp = v)) ∧
    ∀ p v, p ≠ 1 → p ≠ 2 → setParam s p v = (s, none) := by
  have gen : ∀ (h : List Op) (s s' : Rs) (a : List Act), run s h = .ok (s', a) →
      s'.jit = (match last setsJit h with | some v => decide (v ≠ 0) | none => s.jit) ∧
      s'.adap = (match last setsAdap h with | some v => decide (v ≠ 0) | none => s.adap) := by
    intro h
    induction h with
    | nil => intro s s' a hr; cases hr; exact ⟨rfl, rfl⟩
    | cons op ops ih =>
      intro s s' a hr
      simp only [run, bind, Except.bind] at hr
      cases h1 : step s op with
      | error e => rw [h1] at hr; simp at hr
      | ok v =>
        obtain ⟨s1, a1⟩ := v
        rw [h1] at hr
        simp only at hr
        cases h2 : run s1 ops with
        | error e => rw [h2] at hr; simp at hr
        | ok v2 =>
          obtain ⟨s2, a2⟩ := v2
          rw [h2] at hr
          simp only [pure, Except.pure, Except.ok.injEq, Prod.mk.injEq] at hr
          obtain ⟨rfl, -⟩ := hr
          obtain ⟨i1, i2⟩ := ih _ _ _ h2
          obtain ⟨j1, j2⟩ := step_params h1
          refine ⟨?_, ?_⟩
          · rw [i1]
            simp only [last]
            cases hl : last setsJit ops with
            | some v => rfl
            | none =>
              simp only [Option.none_or, j1]
          · rw [i2]
            simp only [last]
            cases hl : last setsAdap ops with
            | some v => rfl
            | none =>
              simp only [Option.none_or, j2]
  obtain ⟨g1, g2⟩ := gen h _ _ _ hr
  refine ⟨g1, g2, ?_, ?_⟩
  · intro v
    by_cases hv : v = 0 <;> simp [setParam, hv]
  · intro p v h1 h2
    simp [setParam, h1, h2]

/-! ### Cases that meet the hypotheses -/

def demo : List Op :=
  [.send [1] 160 false true 13, .skipped 160, .setParam 2 50, .connect 0 true true true, .connect 4000 true true true, .send [1] 160 true true 13,
   .skipped 320, .send [2, 3] 160 false false 0, .send [4] 160 false true (-1), .readable (some ⟨1, 2, true, [7]⟩), .readable none,
   .readable (some ⟨2, 3, false, []⟩), .free, .readable none]

example : noUseAfterFree demo = true ∧ demo.countP enables = 1 ∧ ∃ s, run (create false true 0xffffffff) demo = .ok (s,
    [.send 0xffffffff true [1], .send 0x1df false [4], .query 0, .rx [7] 1 2 true, .query 160, .query 320, .closed]) :=
  ⟨by decide +kernel, by decide +kernel, _, rfl⟩

example : ticks (demo.take 8) = 480 ∧ rxTicks false (demo.take 12) = 480 ∧ last setsJit demo = some 50 := by decide +kernel

example : ∃ s a, run (create false true 0) [.autoconnect true true] = .ok (s, a) ∧ [Op.autoconnect true true].any listens = true := ⟨_, _, rfl, rfl⟩

end Verif.Ortp
