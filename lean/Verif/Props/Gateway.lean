import Verif.Proof.Gateway
/-!
# C171: the TRAU/RTP gateway
-/
namespace Verif.Gw
open Verif Verif.Trau Verif.RtpConv Verif.Spec.Trau Verif.Spec.Rtp Verif.Gw.Spec
open Verif.RaaPrime (bind_ok bind_err)
set_option maxRecDepth 10000

theorem adv_sub (g : G) {n m : Nat} (hn : n = 1 ∨ n = 2) (hm : m = 1 ∨ m = 2) :
    ((adv g n).sub m).rs.txTs = if m = n then (g.sub n).rs.txTs + 160 else (g.sub m).rs.txTs := by
  rw [adv, sub_set g n m _ hn hm]
  split <;> rfl

theorem adv_good {g : G} (h : Good g) {n : Nat} (hn : n = 1 ∨ n = 2) : Good (adv g n) := h.set hn (h n hn).1 (h n hn).2

theorem fst_ite {α β : Type} (c : Prop) [Decidable c] (x : α) (y z : β) : (if c then (x, y) else (x, z)).1 = x := by split <;> rfl

/-- the actions of a poll besides the callback -/
theorem poll_acts (s : Ortp.Rs) (p : Option Ortp.Pkt) (n m : Nat) :
    sentOf m ((Ortp.pollSock s p).1.map (.rtp n)) = [] ∧ enqOf m ((Ortp.pollSock s p).1.map (.rtp n)) = [] := by
  have key : (Ortp.pollSock s p).1 = [] ∨ (Ortp.pollSock s p).1 = [.query s.rxTs] ∨ ∃ q : Ortp.Pkt, (Ortp.pollSock s p).1 = [.query s.rxTs, .rx q.payload q.seq q.ts q.marker] := by
    unfold Ortp.pollSock
    split
    · exact .inl rfl
    · cases p with
      | none => exact .inr (.inl rfl)
      | some q =>
        simp only [Ortp.recvWithCb]
        by_cases h : (s.hasCb && decide (0 < q.payload.length)) = true
        · rw [if_pos h]
          refine .inr (.inr ⟨q, ?_⟩)
          exact fst_ite _ _ _ _
        · rw [if_neg h]
          refine .inr (.inl ?_)
          exact fst_ite _ _ _ _
  rcases key with e | e | ⟨q, e⟩ <;> rw [e] <;> exact ⟨rfl, rfl⟩

/-- what one operation does -/
structure Did (g : G) (op : Op) (g' : G) (a : List Act) : Prop where
  good : Good g'
  loop : g'.loop = g.loop
  queue : ∀ n, n = 1 ∨ n = 2 → (∃ m, Makes g.loop n op m ∧ m.length = 320 ∧ enqOf n a = [m]) ∨ ((∀ m, ¬ Makes g.loop n op m) ∧ enqOf n a = [])
  send : g.loop = false → AllocOk [op] → ∀ n, n = 1 ∨ n = 2 → (g'.sub n).rs.txTs = (g.sub n).rs.txTs + 160 * BitVec.ofNat 32 (framesOf n [op]).length ∧
    ∀ ws as, Stream (g'.sub n).rs.txTs ws as → Stream (g.sub n).rs.txTs (framesOf n [op] ++ ws) (sentOf n a ++ as)
  mute : g.loop = true → ∀ n, sentOf n a = []

theorem no_mirror {n o : Nat} {w : Option (List Bool)} {f0 : Frame} {buf : List Bool} {alloc loop : Bool} (h : loop = false ∨ n = o ∨ w = none ∨
    (∀ b, w = some b → ∀ ty ∈ types16, ∀ d, cCode b ≠ code ty d)) (m : List Bool) : ¬ Makes loop n (.frame o w f0 buf alloc) m := by
  intro hm
  cases hm with
  | mirror hl ho h' =>
    rcases h with h | h | h | h
    · rw [hl] at h; cases h
    · exact ho h.symm
    · cases h
    · obtain ⟨ty, ht, d, hc, -, -, -, -⟩ := h'
      refine h _ rfl ty ?_ d hc
      rcases ht with rfl | rfl <;> decide
  | other hl ho ty d ht hc _ =>
    rcases h with h | h | h | h
    · rw [hl] at h; cases h
    · exact ho h.symm
    · cases h
    · exact h _ rfl ty ht.1 d hc

theorem step_did (K : Codec) {g : G} (hg : Good g) {op : Op} (ho : OkOp op) : ∃ g' a, step K g op = .ok (g', a) ∧ Did g op g' a := by
  have zero : ∀ x : BitVec 32, x = x + 160 * BitVec.ofNat 32 0 := fun x => by simp
  cases op with
  | frame n w f0 buf alloc =>
    obtain ⟨hn, hw, h0, hb⟩ := ho
    cases hl : g.loop with
    | true =>
      rcases frame_loop K hl hn w hw h0 hb alloc with ⟨b, m, rfl, hm, e⟩ | ⟨hno, e⟩
      · refine ⟨g, _, e, hg, rfl, ?_, (fun h => by rw [hl] at h; cases h), fun _ k => rfl⟩
        intro k hk
        rw [hl]
        by_cases hkn : k = n
        · refine .inr ⟨no_mirror (.inr (.inl hkn)), ?_⟩
          have : 3 - n ≠ k := by omega
          simp only [enqOf, if_neg this]
        · have hlen : m.length = 320 := by
            rcases hm with ⟨_, _, _, _, hf, _, _, _⟩ | ⟨_, _, _, _, h⟩
            · exact hf.len
            · exact h
          refine .inl ⟨m, ?_, hlen, ?_⟩
          · rcases hm with hm | ⟨ty, d, ht, hc, hlen⟩
            · exact .mirror rfl (fun h => hkn h.symm) hm
            · exact .other rfl (fun h => hkn h.symm) ty d ht hc hlen
          · have : 3 - n = k := by omega
            simp only [enqOf, if_pos this]
      · refine ⟨g, _, e, hg, rfl, ?_, (fun h => by rw [hl] at h; cases h), fun _ k => rfl⟩
        exact fun k _ => .inr ⟨no_mirror (.inr (.inr (.inr hno))), rfl⟩
    | false =>
      have hq : ∀ k m, ¬ Makes g.loop k (.frame n w f0 buf alloc) m := fun k => no_mirror (.inl hl)
      have fr : ∀ k, framesOf k [.frame n w f0 buf alloc] = if n = k then [w] else [] := fun k => rfl
      rcases frame_gw K hg hl hn w hw h0 buf alloc with ⟨b, pl, rfl, hs, e⟩ | ⟨hno, e⟩
      · refine ⟨_, _, e, ?_, ?_, fun k hk => .inr ⟨hq k, ?_⟩, ?_, (fun h => by rw [hl] at h; cases h)⟩
        · cases alloc
          · exact hg
          · exact adv_good hg hn
        · cases alloc
          · rfl
          · exact set_loop _ _ _
        · cases alloc <;> rfl
        · intro _ ha k hk
          cases alloc with
          | false => exact absurd (List.mem_singleton.2 rfl) (ha n _ f0 buf)
          | true =>
            rw [if_pos rfl, if_pos rfl, adv_sub g hn hk, fr]
            by_cases hkn : n = k
            · subst hkn
              rw [if_pos rfl, if_pos rfl]
              refine ⟨by simp, fun ws as ht => ?_⟩
              have : sentOf n [Act.rtp n (.send (g.sub n).rs.txTs false pl)] = [.send (g.sub n).rs.txTs false pl] := by simp [sentOf]
              rw [this]
              exact .send hs ht
            · rw [if_neg hkn, if_neg (fun h => hkn h.symm)]
              refine ⟨zero _, fun ws as ht => ?_⟩
              have : sentOf k [Act.rtp n (.send (g.sub n).rs.txTs false pl)] = [] := by simp [sentOf, hkn]
              rw [this]
              exact ht
      · refine ⟨_, _, e, adv_good hg hn, set_loop _ _ _, fun k hk => .inr ⟨hq k, rfl⟩, ?_, (fun h => by rw [hl] at h; cases h)⟩
        intro _ _ k hk
        rw [adv_sub g hn hk, fr]
        by_cases hkn : n = k
        · subst hkn
          rw [if_pos rfl, if_pos rfl]
          exact ⟨by simp, fun ws as ht => .skip hno ht⟩
        · rw [if_neg hkn, if_neg (fun h => hkn h.symm)]
          exact ⟨zero _, fun ws as ht => ht⟩
  | poll n p buf =>
    obtain ⟨hn, hb⟩ := ho
    have hd := (hg n hn).1
    have hcb := (hg n hn).2
    have fin : ∀ g1 x, Good g1 → g1.loop = g.loop → (∀ k, (k = 1 ∨ k = 2) → (g1.sub k).rs.txTs = (g.sub k).rs.txTs) →
        (∀ k, sentOf k x = []) → (∀ k, k = 1 ∨ k = 2 → (∃ m, Makes g.loop k (.poll n p buf) m ∧ m.length = 320 ∧ enqOf k x = [m]) ∨ ((∀ m, ¬ Makes g.loop k (.poll n p buf) m) ∧ enqOf k x = [])) →
        Did g (.poll n p buf) (g1.set n { g1.sub n with rs := { (g1.sub n).rs with rxTs := (g1.sub n).rs.rxTs + 160 } }) ((Ortp.pollSock (g.sub n).rs p).1.map (.rtp n) ++ x) := by
      intro g1 x k1 k2 k3 k4 k5
      have hs : ∀ k, sentOf k ((Ortp.pollSock (g.sub n).rs p).1.map (.rtp n) ++ x) = [] := fun k => by rw [sentOf_append, (poll_acts _ _ n k).1, k4]; rfl
      refine ⟨k1.set hn (k1 n hn).1 (k1 n hn).2, (set_loop _ _ _).trans k2, fun k hk => ?_, fun _ _ k hk => ?_, fun _ k => hs k⟩
      · rw [enqOf_append, (poll_acts _ _ n k).2, List.nil_append]
        exact k5 k hk
      · have : ((g1.set n { g1.sub n with rs := { (g1.sub n).rs with rxTs := (g1.sub n).rs.rxTs + 160 } }).sub k).rs.txTs = (g.sub k).rs.txTs := by
          rw [sub_set g1 n k _ hn hk]
          by_cases h : k = n
          · subst h
            rw [if_pos rfl]
            exact k3 k hk
          · rw [if_neg h]; exact k3 k hk
        rw [this, hs]
        exact ⟨zero _, fun ws as ht => ht⟩
    have nom : (∀ q, p = some q → q.payload = [] ∨ ∀ c, ¬ Content q.payload c) → ∀ k m, ¬ Makes g.loop k (.poll n p buf) m := by
      intro h k m hm
      cases hm with
      | rtp hl hc _ =>
        rcases h _ rfl with h | h
        · exact hl h
        · exact h _ hc
    have one : ∀ r : G × List Act, (match p with
        | none => (.ok (g, []) : M (G × List Act))
        | some p => if (g.sub n).rs.hasCb && decide (0 < p.payload.length) then rtpRx K g n p.payload buf else .ok (g, [])) = .ok r →
        step K g (.poll n p buf) = .ok (r.1.set n { r.1.sub n with rs := { (r.1.sub n).rs with rxTs := (r.1.sub n).rs.rxTs + 160 } },
          (Ortp.pollSock (g.sub n).rs p).1.map (.rtp n) ++ r.2) := by
      intro r hr
      show Gw.poll K g n p buf = _
      unfold Gw.poll
      rw [hd, if_neg (by decide)]
      cases p with
      | none => cases hr; rfl
      | some q =>
        dsimp only at hr ⊢
        by_cases h : ((g.sub n).rs.hasCb && decide (0 < q.payload.length)) = true
        · rw [if_pos h] at hr ⊢
          rw [hr]; rfl
        · rw [if_neg h] at hr ⊢
          cases hr; rfl
    have none_case : (match p with
        | none => (.ok (g, []) : M (G × List Act))
        | some p => if (g.sub n).rs.hasCb && decide (0 < p.payload.length) then rtpRx K g n p.payload buf else .ok (g, [])) = .ok (g, []) →
        (∀ q, p = some q → q.payload = [] ∨ ∀ c, ¬ Content q.payload c) →
        ∃ g' a, step K g (.poll n p buf) = .ok (g', a) ∧ Did g (.poll n p buf) g' a := by
      intro h1 h2
      exact ⟨_, _, one _ h1, fin g [] hg rfl (fun _ _ => rfl) (fun _ => rfl) (fun k _ => .inr ⟨nom h2 k, rfl⟩)⟩
    cases p with
    | none => exact none_case rfl (fun q h => nomatch h)
    | some q =>
      by_cases h0 : q.payload = []
      · refine none_case ?_ (fun q' h => ?_)
        · simp only [h0, List.length_nil, Nat.lt_irrefl, decide_false, Bool.and_false, Bool.false_eq_true, if_false]
        · cases h; exact .inl h0
      · have hc : ((g.sub n).rs.hasCb && decide (0 < q.payload.length)) = true := by
          rw [hcb]; simpa using List.length_pos_iff.2 h0
        obtain ⟨a, r1, r2⟩ := rx_step K g n q.payload hb
        have e := one _ ((if_pos hc).trans r1)
        refine ⟨_, _, e, fin _ a (hg.set hn hd hcb) (set_loop _ _ _) ?_ ?_ ?_⟩
        · intro k hk
          rw [sub_set g n k _ hn hk]
          by_cases h : k = n
          · subst h; rw [if_pos rfl]
          · rw [if_neg h]
        · intro k
          rcases r2 with ⟨c, m, -, -, -, rfl⟩ | ⟨rfl, -⟩ <;> rfl
        · intro k hk
          rcases r2 with ⟨c, m, c1, c2, c3, rfl⟩ | ⟨rfl, h⟩
          · by_cases hkn : n = k
            · subst hkn
              exact .inl ⟨m, .rtp h0 c1 c2, c3, by simp [enqOf]⟩
            · refine .inr ⟨fun m' hm => ?_, by simp [enqOf, hkn]⟩
              cases hm
              exact hkn rfl
          · exact .inr ⟨nom (fun q' h' => by cases h'; exact .inr h) k, rfl⟩
  | empty n buf =>
    obtain ⟨hn, hb⟩ := ho
    obtain ⟨m, m1, m2, m3⟩ := fill_eq K g n hb
    refine ⟨g, _, m1, hg, rfl, fun k hk => ?_, fun _ _ k hk => ⟨zero _, fun ws as ht => ht⟩, fun _ k => rfl⟩
    by_cases hkn : n = k
    · subst hkn
      exact .inl ⟨m, .fill m2, m3, by simp [enqOf]⟩
    · refine .inr ⟨fun m' hm => ?_, by simp [enqOf, hkn]⟩
      cases hm
      exact hkn rfl

theorem framesOf_cons (n : Nat) (op : Op) (ops : List Op) : framesOf n (op :: ops) = framesOf n [op] ++ framesOf n ops := by
  cases op with
  | frame m w f0 buf alloc =>
    by_cases h : m = n
    · simp only [framesOf, if_pos h, List.cons_append, List.nil_append]
    · simp only [framesOf, if_neg h, List.nil_append]
  | poll m p buf => rfl
  | empty m buf => rfl

theorem run_cons {K : Codec} {g g1 : G} {op : Op} {ops : List Op} {a : List Act} (h : step K g op = .ok (g1, a)) {g2 : G} {b : List Act}
    (h' : run K g1 ops = .ok (g2, b)) : run K g (op :: ops) = .ok (g2, a ++ b) := by
  rw [run, h, bind_ok, h', bind_ok]

theorem alloc_split {op : Op} {ops : List Op} (h : AllocOk (op :: ops)) : AllocOk [op] ∧ AllocOk ops :=
  ⟨fun n w f0 buf hm => h n w f0 buf (List.mem_cons.2 (.inl (List.mem_singleton.1 hm))), fun n w f0 buf hm => h n w f0 buf (List.mem_cons_of_mem _ hm)⟩

/-- all of the properties of a run, by induction -/
theorem run_all (K : Codec) : ∀ (ops : List Op) (g : G), Good g → (∀ op ∈ ops, OkOp op) →
    ∃ g' a, run K g ops = .ok (g', a) ∧ Good g' ∧ g'.loop = g.loop ∧
      (∀ n, n = 1 ∨ n = 2 → Queued g.loop n ops (enqOf n a) ∧ ∀ m ∈ enqOf n a, m.length = 320) ∧
      (g.loop = false → AllocOk ops → ∀ n, n = 1 ∨ n = 2 →
        (g'.sub n).rs.txTs = (g.sub n).rs.txTs + 160 * BitVec.ofNat 32 (framesOf n ops).length ∧ Stream (g.sub n).rs.txTs (framesOf n ops) (sentOf n a)) ∧
      (g.loop = true → ∀ n, sentOf n a = []) := by
  intro ops
  induction ops with
  | nil =>
    intro g hg _
    refine ⟨g, [], rfl, hg, rfl, fun n _ => ⟨.nil, fun m h => nomatch h⟩, fun _ _ n _ => ⟨?_, .nil _⟩, fun _ n => rfl⟩
    simp [framesOf]
  | cons op ops ih =>
    intro g hg ho
    obtain ⟨g1, a, e1, d⟩ := step_did K hg (ho op List.mem_cons_self)
    obtain ⟨g2, b, e2, i1, i2, i3, i4, i5⟩ := ih g1 d.good (fun o h => ho o (List.mem_cons_of_mem _ h))
    refine ⟨g2, a ++ b, run_cons e1 e2, i1, i2.trans d.loop, fun n hn => ?_, fun hl ha n hn => ?_, fun hl n => ?_⟩
    · obtain ⟨q1, q2⟩ := i3 n hn
      rw [d.loop] at q1
      rw [enqOf_append]
      rcases d.queue n hn with ⟨m, m1, m2, m3⟩ | ⟨m1, m2⟩
      · rw [m3]
        refine ⟨.make m1 q1, fun x hx => ?_⟩
        rcases List.mem_cons.1 hx with rfl | hx
        · exact m2
        · exact q2 x hx
      · rw [m2]
        exact ⟨.skip m1 q1, q2⟩
    · obtain ⟨ha1, ha2⟩ := alloc_split ha
      obtain ⟨s1, s2⟩ := d.send hl ha1 n hn
      obtain ⟨t1, t2⟩ := i4 (d.loop.trans hl) ha2 n hn
      rw [framesOf_cons, sentOf_append]
      refine ⟨?_, s2 _ _ t2⟩
      rw [t1, s1, List.length_append, BitVec.ofNat_add, BitVec.mul_add, BitVec.add_assoc]
    · rw [sentOf_append, d.mute hl n, i5 (d.loop.trans hl) n]
      rfl

/-- no frame, packet or callback can make the gateway access memory out of bounds or fail an assertion -/
theorem C171_safe (K : Codec) (loop : Bool) (r1 r2 : BitVec 32) (ops : List Op) (h : ∀ op ∈ ops, OkOp op) :
    ∃ g g' a, init loop r1 r2 true true = .ok g ∧ run K g ops = .ok (g', a) := by
  obtain ⟨g, h1, h2, -⟩ := init_good loop r1 r2
  obtain ⟨g', a, h3, -⟩ := run_all K ops g h2 h
  exact ⟨g, g', a, h1, h3⟩

/-- the RTP stream of a sub-slot: its packets are exactly the good speech frames, in order, and their time stamps count all the frames received and lost -/
theorem C171_rtp (K : Codec) (r1 r2 : BitVec 32) (ops : List Op) (h : ∀ op ∈ ops, OkOp op) (ha : AllocOk ops) :
    ∃ g g' a, init false r1 r2 true true = .ok g ∧ run K g ops = .ok (g', a) ∧
      Stream r1 (framesOf 1 ops) (sentOf 1 a) ∧ Stream r2 (framesOf 2 ops) (sentOf 2 a) ∧
      (g'.sub 1).rs.txTs = r1 + 160 * BitVec.ofNat 32 (framesOf 1 ops).length ∧ (g'.sub 2).rs.txTs = r2 + 160 * BitVec.ofNat 32 (framesOf 2 ops).length := by
  obtain ⟨g, h1, h2, h3, h4, h5⟩ := init_good false r1 r2
  obtain ⟨g', a, e, -, -, -, k, -⟩ := run_all K ops g h2 h
  obtain ⟨k1, k2⟩ := k h3 ha 1 (.inl rfl)
  obtain ⟨k3, k4⟩ := k h3 ha 2 (.inr rfl)
  rw [h4] at k1 k2
  rw [h5] at k3 k4
  exact ⟨g, g', a, h1, e, k2, k4, k1, k3⟩

/-- what is queued for the E1 side: one 320 bit frame for each RTP packet with speech or without data and for each time the queue runs empty, and, in loop mode,
for each frame of the other sub-slot; nothing else -/
theorem C171_queued (K : Codec) (loop : Bool) (r1 r2 : BitVec 32) (ops : List Op) (h : ∀ op ∈ ops, OkOp op) :
    ∃ g g' a, init loop r1 r2 true true = .ok g ∧ run K g ops = .ok (g', a) ∧
      ∀ n, n = 1 ∨ n = 2 → Queued loop n ops (enqOf n a) ∧ ∀ m ∈ enqOf n a, m.length = 320 := by
  obtain ⟨g, h1, h2, h3, -⟩ := init_good loop r1 r2
  obtain ⟨g', a, e, -, -, k, -⟩ := run_all K ops g h2 h
  rw [h3] at k
  exact ⟨g, g', a, h1, e, k⟩

/-- in loop mode no RTP packet is sent -/
theorem C171_mute (K : Codec) (r1 r2 : BitVec 32) (ops : List Op) (h : ∀ op ∈ ops, OkOp op) :
    ∃ g g' a, init true r1 r2 true true = .ok g ∧ run K g ops = .ok (g', a) ∧ ∀ n, sentOf n a = [] := by
  obtain ⟨g, h1, h2, h3, -⟩ := init_good true r1 r2
  obtain ⟨g', a, e, -, -, -, -, k⟩ := run_all K ops g h2 h
  exact ⟨g, g', a, h1, e, k h3⟩

/-- the payload for a frame is determined -/
theorem C171_unique {w : List Bool} {a b : List Byte} (ha : Sends w a) (hb : Sends w b) : a = b := by
  cases ha with
  | fr d1 c1 g1 p1 =>
    cases hb with
    | fr d2 c2 g2 p2 => exact IsFr.unique p1 p2
    | efr c2 g2 k2 p2 => rw [c1] at c2; exact absurd c2 (by cases d1 <;> decide)
  | efr c1 g1 k1 p1 =>
    cases hb with
    | fr d2 c2 g2 p2 => rw [c1] at c2; exact absurd c2 (by cases d2 <;> decide)
    | efr c2 g2 k2 p2 => exact IsEfr.unique p1 p2

/-- so is the whole stream -/
theorem C171_stream_unique {ts : BitVec 32} {ws : List (Option (List Bool))} {a b : List Ortp.Act} (ha : Stream ts ws a) (hb : Stream ts ws b) : a = b := by
  induction ha generalizing b with
  | nil => cases hb; rfl
  | send h _ ih =>
    cases hb with
    | send h' t => rw [C171_unique h h', ih t]
    | skip h' t => exact absurd h (h' _ rfl _)
  | skip h _ ih =>
    cases hb with
    | send h' t => exact absurd h' (h _ rfl _)
    | skip h' t => exact ih t

/-- if oRTP cannot allocate a packet, the time stamp does not advance: all later packets of the sub-slot are 20 ms early -/
theorem C171_alloc_violated (K : Codec) {g : G} (hg : Good g) (hl : g.loop = false) {n : Nat} (hn : n = 1 ∨ n = 2) {w : List Bool} (hw : 321 ≤ w.length)
    {pl : List Byte} (hs : Sends w pl) {f0 : Frame} (h0 : f0.WF) (buf : List Bool) :
    step K g (.frame n (some w) f0 buf false) = .ok (g, []) := by
  rcases frame_gw K hg hl hn (some w) (fun b h => by cases h; exact hw) h0 buf false with ⟨_, _, -, -, e⟩ | ⟨h, -⟩
  · exact e
  · exact absurd hs (h w rfl pl)

/-- a payload without TW-TS-001 header is no header -/
theorem content_efr {pl : List Byte} {s : List Bool} (h : IsEfr pl s) {c : Option (List Bool)} (hc : Content pl c) : c = some s := by
  have nibC : ∀ x : Byte, x.getLsbD 5 = false → x >>> 4 ≠ 0xE := by decide +kernel
  have hx : ∀ x ∈ pl.head?, x >>> 4 ≠ 0xE := by
    intro x hx
    match pl, h with
    | y :: r, h =>
      simp only [List.head?_cons, Option.mem_some_iff] at hx
      subst hx
      apply nibC
      have := h.bits
      simp only [bitsOf, List.cons_append, List.cons.injEq, List.nil_append] at this
      exact this.2.2.1
    | [], h => cases hx
  rcases content_pl (.inl ⟨rfl, hx⟩) hc with ⟨-, e⟩ | ⟨s', rfl, hs⟩
  · have := h.len; rw [e] at this; cases this
  · have := hs.bits.symm.trans h.bits
    rw [List.append_cancel_left this]

theorem content_fr {pl : List Byte} {s : List Bool} (h : IsFr pl s) {c : Option (List Bool)} : ¬ Content pl c := by
  have nibC : ∀ x : Byte, x.getLsbD 5 = false → x >>> 4 ≠ 0xE := by decide +kernel
  have hx : ∀ x ∈ pl.head?, x >>> 4 ≠ 0xE := by
    intro x hx
    match pl, h with
    | y :: r, h =>
      simp only [List.head?_cons, Option.mem_some_iff] at hx
      subst hx
      apply nibC
      have := h.bits
      simp only [bitsOf, List.cons_append, List.cons.injEq, List.nil_append] at this
      exact this.2.2.1
    | [], h => cases hx
  intro hc
  rcases content_pl (.inl ⟨rfl, hx⟩) hc with ⟨-, e⟩ | ⟨s', rfl, hs⟩
  · have := h.len; rw [e] at this; cases this
  · have := h.len; have := hs.len; omega

/-- the frame is sent -/
theorem sends_step (K : Codec) {g : G} (hg : Good g) (hl : g.loop = false) {n : Nat} (hn : n = 1 ∨ n = 2) {w : List Bool} (hw : 321 ≤ w.length)
    {pl : List Byte} (hs : Sends w pl) {f0 : Frame} (h0 : f0.WF) (buf : List Bool) :
    step K g (.frame n (some w) f0 buf true) = .ok (adv g n, [.rtp n (.send (g.sub n).rs.txTs false pl)]) := by
  rcases frame_gw K hg hl hn (some w) (fun b h => by cases h; exact hw) h0 buf true with ⟨b, pl', hb, hs', e⟩ | ⟨h, -⟩
  · cases hb
    rw [C171_unique hs hs']
    exact e
  · exact absurd hs (h w rfl pl)

/-- the packet is received -/
theorem rx_poll (K : Codec) {h : G} (hh : Good h) {k : Nat} (hk : k = 1 ∨ k = 2) (q : Ortp.Pkt) {buf : List Bool} (hb : buf.length = 640) :
    ∃ h' a, step K h (.poll k (some q) buf) = .ok (h', a) ∧ ((∃ c m, Content q.payload c ∧ IsDl c m ∧ enqOf k a = [m]) ∨
      ((∀ m, ¬ Makes h.loop k (.poll k (some q) buf) m) ∧ enqOf k a = [])) := by
  obtain ⟨h', a, e, d⟩ := step_did K hh (op := .poll k (some q) buf) ⟨hk, hb⟩
  refine ⟨h', a, e, ?_⟩
  rcases d.queue k hk with ⟨m, m1, -, m3⟩ | r
  · cases m1 with
    | rtp hl hc hm => exact .inl ⟨_, m, hc, hm, m3⟩
  · exact .inr r

theorem dl_code {c : Option (List Bool)} {m : List Bool} (h : IsDl c m) : cCode m = code .efr .dl := by
  obtain ⟨sp, e⟩ := h.ctl
  have := congrArg (·.take 5) e
  have l : m.length = 320 := h.frame.len
  have e2 : (cBits m).take 5 = cCode m := by
    unfold cBits cCode
    rw [List.take_append_of_le_length (by simp; omega), List.take_take]
    rfl
  simp only [e2] at this
  rw [this]
  rfl

theorem efrSpeech_len {d : List Bool} (h : d.length = 260) : (efrSpeechBits d).length = 244 := by
  simp [efrSpeechBits, h]

/-- two gateways back to back: an enhanced full rate frame received by the one and decoded without errors is sent by the other as a down-link frame with
the same 244 bits of speech, exactly one for the frame.  Full rate frames: see `C171_fr_violated` -/
theorem C171_e2e_partial (K : Codec) {g h : G} (hg : Good g) (hl : g.loop = false) (hh : Good h) {n k : Nat} (hn : n = 1 ∨ n = 2) (hk : k = 1 ∨ k = 2)
    {w : List Bool} (hw : 321 ≤ w.length) (hc : cCode w = code .efr .ul) (good : w[28]? = some false) (chk : EfrChecksOk (dBits w))
    {f0 : Frame} (h0 : f0.WF) (b1 : List Bool) {b2 : List Bool} (hb : b2.length = 640) (sq : BitVec 16) (ts : BitVec 32) (mk : Bool) :
    ∃ g' pl, step K g (.frame n (some w) f0 b1 true) = .ok (g', [.rtp n (.send (g.sub n).rs.txTs false pl)]) ∧
      ∃ h' a m, step K h (.poll k (some { payload := pl, seq := sq, ts := ts, marker := mk }) b2) = .ok (h', a) ∧ enqOf k a = [m] ∧
        Verif.Spec.IsFrame m ∧ cCode m = code .efr .dl ∧ EfrChecksOk (dBits m) ∧ efrSpeechBits (dBits m) = efrSpeechBits (dBits w) := by
  have hp := efrPayload_isEfr (s := efrSpeechBits (dBits w)) (efrSpeech_len (dBits_length (by omega)))
  refine ⟨_, _, sends_step K hg hl hn hw (.efr hc good chk hp) h0 b1, ?_⟩
  have hne : efrPayload (efrSpeechBits (dBits w)) ≠ [] := fun e => by have := hp.len; rw [e] at this; cases this
  obtain ⟨h', a, e, r⟩ := rx_poll K hh hk { payload := efrPayload (efrSpeechBits (dBits w)), seq := sq, ts := ts, marker := mk } hb
  refine ⟨h', a, ?_⟩
  rcases r with ⟨c, m, r1, r2, r3⟩ | ⟨r, -⟩
  · rw [content_efr hp r1] at r2
    exact ⟨m, e, r3, r2.frame, dl_code r2, r2.speech _ rfl⟩
  · obtain ⟨x, y, z⟩ := rx_step K h k (efrPayload (efrSpeechBits (dBits w))) hb
    rcases z with ⟨c, m, z1, z2, -, -⟩ | ⟨-, z⟩
    · exact absurd (.rtp hne z1 z2) (r m)
    · exact absurd (.speech (.inl rfl) hp) (z (some _))

/-- a full rate frame is not: the other gateway takes its RTP packet for enhanced full rate and drops it -/
theorem C171_fr_violated (K : Codec) {g h : G} (hg : Good g) (hl : g.loop = false) (hh : Good h) {n k : Nat} (hn : n = 1 ∨ n = 2) (hk : k = 1 ∨ k = 2)
    {w : List Bool} (hw : 321 ≤ w.length) {d : Dir} (hc : cCode w = code .fr d) (good : w[28]? = some false)
    {f0 : Frame} (h0 : f0.WF) (b1 : List Bool) {b2 : List Bool} (hb : b2.length = 640) (sq : BitVec 16) (ts : BitVec 32) (mk : Bool) :
    ∃ g' pl, step K g (.frame n (some w) f0 b1 true) = .ok (g', [.rtp n (.send (g.sub n).rs.txTs false pl)]) ∧ pl.length = 33 ∧
      ∃ h' a, step K h (.poll k (some { payload := pl, seq := sq, ts := ts, marker := mk }) b2) = .ok (h', a) ∧ enqOf k a = [] := by
  have hp := frPayload_isFr (s := reverseEach frWidths (dBits w)) (reverse_fr_length (dBits_length (by omega)))
  refine ⟨_, _, sends_step K hg hl hn hw (.fr d hc good hp) h0 b1, hp.len, ?_⟩
  obtain ⟨h', a, e, r⟩ := rx_poll K hh hk { payload := frPayload (reverseEach frWidths (dBits w)), seq := sq, ts := ts, marker := mk } hb
  rcases r with ⟨c, m, r1, -⟩ | ⟨-, r⟩
  · exact absurd r1 (content_fr hp)
  · exact ⟨h', a, e, r⟩

/-! ### concrete cases -/

/-- a frame of the given C, D and T bits, and one bit more -/
def exW (c d t : List Bool) : List Bool :=
  List.replicate 16 false ++ [true] ++ c.take 15 ++ (List.range 17).flatMap (fun k => true :: (d.drop (15 * k)).take 15) ++ [true] ++ d.drop 255 ++ c.drop 15 ++ t ++ [false]

/-- enhanced full rate, speech with a one bit, and the check bits that go with it -/
def exD : List Bool := efrData (List.replicate 243 false ++ [true]) [true, true, false] [true, true, true] [true, true, true] [true, true, true] [true, true, true]
def exEfrW : List Bool := exW (code .efr .ul ++ List.replicate 16 false) exD [true, true, true, true]
def exFrW : List Bool := exW (code .fr .ul ++ List.replicate 16 false) exD [true, true, true, true]
/-- marked as bad -/
def exBadW : List Bool := exW (code .fr .ul ++ List.replicate 6 false ++ [true] ++ List.replicate 9 false) exD [true, true, true, true]

example : 321 ≤ exEfrW.length ∧ cCode exEfrW = code .efr .ul ∧ exEfrW[28]? = some false ∧ EfrChecksOk (dBits exEfrW) ∧
    efrSpeechBits (dBits exEfrW) = List.replicate 243 false ++ [true] := by
  refine ⟨by decide +kernel, by decide +kernel, by decide +kernel, ?_, by decide +kernel⟩
  unfold EfrChecksOk checkBitsOk
  decide +kernel
example : Sends exFrW (frPayload (reverseEach frWidths (dBits exFrW))) :=
  .fr .ul (by decide +kernel) (by decide +kernel) (frPayload_isFr (by decide +kernel))
example : ∀ pl, ¬ Sends exBadW pl := by
  intro pl h
  have e : exBadW[28]? = some true := by decide +kernel
  cases h with
  | fr _ _ g => rw [e] at g; cases g
  | efr _ g => rw [e] at g; cases g
/-- operations: a good frame, a bad one, a lost one, a packet, an empty queue -/
def exOps : List Op := [.frame 1 (some exFrW) (zeroFrame .none) (List.replicate 640 false) true, .frame 1 (some exBadW) (zeroFrame .none) (List.replicate 640 false) true,
  .frame 1 none (zeroFrame .none) (List.replicate 640 false) true, .poll 2 (some ⟨7, 160, false, frPayload (List.replicate 260 false)⟩) (List.replicate 640 true),
  .poll 2 (some ⟨8, 320, false, efrPayload (List.replicate 244 true)⟩) (List.replicate 640 true), .empty 2 (List.replicate 640 false)]
theorem exOps_ok : (∀ op ∈ exOps, OkOp op) ∧ AllocOk exOps := by
  have l : 321 ≤ exFrW.length ∧ 321 ≤ exBadW.length := by decide +kernel
  have f : ∀ w f0 buf, (w = some exFrW ∨ w = some exBadW ∨ w = none) → f0 = zeroFrame .none → buf = List.replicate 640 false → OkOp (.frame 1 w f0 buf true) := by
    rintro w f0 buf h rfl rfl
    refine ⟨.inl rfl, ?_, zeroFrame_WF _, List.length_replicate⟩
    intro b hb
    rcases h with rfl | rfl | rfl <;> cases hb
    · exact l.1
    · exact l.2
  constructor
  · intro op h
    simp only [exOps, List.mem_cons, List.not_mem_nil, or_false] at h
    rcases h with rfl | rfl | rfl | rfl | rfl | rfl
    · exact f _ _ _ (.inl rfl) rfl rfl
    · exact f _ _ _ (.inr (.inl rfl)) rfl rfl
    · exact f _ _ _ (.inr (.inr rfl)) rfl rfl
    · exact ⟨.inr rfl, List.length_replicate⟩
    · exact ⟨.inr rfl, List.length_replicate⟩
    · exact ⟨.inr rfl, List.length_replicate⟩
  · intro n w f0 buf h
    simp only [exOps, List.mem_cons, List.not_mem_nil, Op.frame.injEq, reduceCtorEq, and_false, or_self, Bool.false_eq_true] at h
/-- three frames, of which the first is sent, and the clock is at 480 -/
example : framesOf 1 exOps = [some exFrW, some exBadW, none] ∧ ∃ pl, Stream 5 (framesOf 1 exOps) [.send 5 false pl] := by
  refine ⟨rfl, frPayload (reverseEach frWidths (dBits exFrW)), ?_⟩
  refine .send (.fr .ul (by decide +kernel) (by decide +kernel) (frPayload_isFr (by decide +kernel))) (.skip ?_ (.skip (fun b h => nomatch h) (.nil _)))
  intro b hb pl h
  cases hb
  have e : exBadW[28]? = some true := by decide +kernel
  cases h with
  | fr _ _ g => rw [e] at g; cases g
  | efr _ g => rw [e] at g; cases g
/-- of the two packets, only the enhanced full rate one has a content -/
example : Content (efrPayload (List.replicate 244 true)) (some (List.replicate 244 true)) := .speech (.inl rfl) (efrPayload_isEfr List.length_replicate)
example : ∀ c, ¬ Content (frPayload (List.replicate 260 false)) c := fun _ => content_fr (frPayload_isFr List.length_replicate)

end Verif.Gw
