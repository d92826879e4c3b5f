import Verif.Spec.GatewayLine
import Verif.Props.Gateway
import Verif.Props.TrauSync
/-!
# C172: the gateway with its frame synchronisers
-/
namespace Verif.Gw.Line
open Verif Verif.Trau Verif.RtpConv Verif.Spec.Trau Verif.Gw.Spec Verif.Gw.Line.Spec
open Verif.TrauSync (Inv N prim stepB runB alloc syncPatterns rxUbits HIST ring Ev Pat Matches window rxUbits_eq runB_append runB_inv runB_pats)
open Verif.Spec.Rtp (IsFr IsEfr EfrChecksOk efrSpeechBits reverseEach frWidths)
open Verif.RaaPrime (bind_ok bind_err)
set_option maxRecDepth 10000

/-! ### the synchroniser -/

/-- the pattern of full rate and enhanced full rate frames -/
def p0 : Pat := syncPatterns[0]'(by decide)
/-- a new synchroniser -/
def s0 : TrauSync.St :=
  { hist := List.replicate HIST 1, idx := 0, pats := some p0 :: List.replicate 7 none, errs := 0, fsm := .wait, timer := false, nAlign := 0 }
theorem alloc_s0 : alloc 0 = some s0 := rfl
theorem p0_nbits : p0.nbits = 320 := rfl

/-- which bits the pattern selects -/
theorem p0_bits : ∀ i < 320, p0.mask[i]? ≠ some 0 ↔ (i < 16 ∨ (i % 16 = 0 ∧ i < 320)) := by decide +kernel
theorem p0_val : ∀ i < 320, p0.mask[i]? ≠ some 0 → p0.bits[i]? = some (if i < 16 then 0 else 1) := by decide +kernel

theorem aligned_iff (b : List Byte) : Aligned b ↔ b.length = 320 ∧ Matches p0 b := by
  unfold Aligned Matches
  have hn : p0.byteLen * 8 = 320 := rfl
  rw [hn]
  refine and_congr_right fun _ => ⟨fun h i hi hm => ?_, fun h => ⟨fun i hi => ?_, fun k hk => ?_⟩⟩
  · rw [p0_val i hi hm]
    by_cases h16 : i < 16
    · rw [if_pos h16]; exact h.1 i h16
    · rw [if_neg h16]
      rcases (p0_bits i hi).1 hm with h' | ⟨h', -⟩
      · exact absurd h' h16
      · have := h.2 ((i - 16) / 16) (by omega)
        rw [show 16 + 16 * ((i - 16) / 16) = i by omega] at this
        exact this
  · have hm := (p0_bits i (by omega)).2 (.inl hi)
    rw [h i (by omega) hm, p0_val i (by omega) hm, if_pos hi]
  · have hm := (p0_bits (16 + 16 * k) (by omega)).2 (.inr ⟨by omega, by omega⟩)
    rw [h _ (by omega) hm, p0_val _ (by omega) hm, if_neg (by omega)]

/-- frames have the length of the pattern -/
theorem stepB_len (g : Nat → Nat → Byte) (s : TrauSync.St) (h : Inv s) (b : Byte) : ∀ f, some f ∈ (stepB g s b).2 → f.length = N s := by
  have hN := TrauSync.N_le h
  have hlen : (s.hist.set s.idx b).length = HIST := by simp [h.len]
  have hidx := h.idx
  have hH : HIST = 1281 := rfl
  intro f hf
  unfold stepB at hf
  split at hf
  · split at hf
    · cases hf
    · unfold TrauSync.blockEnd at hf
      have e : f = (s.hist.set s.idx b).take (N s) ∨ False := by
        split at hf
        · exact .inl (by simp at hf; exact hf)
        · split at hf
          · simp at hf
          · exact .inl (by simp at hf; exact hf)
      rcases e with rfl | e
      · rw [List.length_take, hlen]; omega
      · cases e
  · unfold TrauSync.acquire at hf
    split at hf
    · have e : f = TrauSync.win { s with hist := s.hist.set s.idx b, idx := (s.idx + 1) % HIST } (N s) := by simp at hf; exact hf
      rw [e]
      exact TrauSync.win_length hlen (Nat.le_of_lt (Nat.mod_lt _ (by decide))) (by omega)
    · cases hf

theorem runB_len (g : Nat → Nat → Byte) : ∀ (bs : List Byte) (s : TrauSync.St), Inv s → ∀ f, some f ∈ (runB g s bs).2 → f.length = N s
  | [], _, _, f, hf => by cases hf
  | b :: bs, s, h, f, hf => by
    rcases List.mem_append.1 (show some f ∈ (stepB g s b).2 ++ (runB g (stepB g s b).1 bs).2 from hf) with hf | hf
    · exact stepB_len g s h b f hf
    · have := runB_len g bs _ (TrauSync.stepB_inv g s b h) f hf
      rw [this]
      unfold N prim
      rw [TrauSync.stepB_pats]

/-- a synchroniser of the gateway -/
structure Ok (s : TrauSync.St) : Prop where
  inv : Inv s
  pats : s.pats = s0.pats

theorem ok_s0 : Ok s0 := ⟨(TrauSync.Reach.alloc (g := fun _ _ => 0) alloc_s0).inv, rfl⟩
theorem Ok.N {s : TrauSync.St} (h : Ok s) : N s = 320 := by unfold TrauSync.N prim; rw [h.pats]; rfl
theorem Ok.run {s : TrauSync.St} (h : Ok s) (g : Nat → Nat → Byte) (xs : List Byte) : Ok (runB g s xs).1 :=
  ⟨runB_inv g xs s h.inv, (runB_pats g xs s).trans h.pats⟩

/-! ### the operations of the gateway for those of the line -/

/-- the frames the call-backs are given -/
def given (w : Option (List Bool)) (e : Ev) : Prop :=
  match e, w with
  | none, none => True
  | some f, some b => f.length = 320 ∧ ∃ r, b = frameBits f ++ r
  | _, _ => False

/-- the frames of a list of operations are those of a list of events -/
inductive Gives : List (Option (List Bool)) → List Ev → Prop where
  | nil : Gives [] []
  | cons {w : Option (List Bool)} {e : Ev} {ws : List (Option (List Bool))} {es : List Ev} (h : given w e) (t : Gives ws es) : Gives (w :: ws) (e :: es)

theorem Gives.append {a : List (Option (List Bool))} {x : List Ev} (h : Gives a x) {b : List (Option (List Bool))} {y : List Ev} (h' : Gives b y) :
    Gives (a ++ b) (x ++ y) := by
  induction h with
  | nil => exact h'
  | cons h _ ih => exact .cons h ih

theorem Gives.length {a : List (Option (List Bool))} {x : List Ev} (h : Gives a x) : a.length = x.length := by
  induction h with
  | nil => rfl
  | cons _ _ ih => simp [ih]

theorem evOps_ok {n : Nat} (hn : n = 1 ∨ n = 2) {aux : Nat → Aux} (ha : ∀ i, (aux i).f0.WF ∧ (aux i).after ≠ [] ∧ (aux i).buf.length = 640) :
    ∀ (es : List Ev) (i : Nat), (∀ f, some f ∈ es → f.length = 320) →
      (∀ op ∈ evOps n aux i es, Gw.Spec.OkOp op) ∧ Gives (framesOf n (evOps n aux i es)) es ∧ (∀ m, m ≠ n → framesOf m (evOps n aux i es) = []) ∧
      ((∀ i, (aux i).alloc = true) → Gw.Spec.AllocOk (evOps n aux i es)) := by
  intro es
  induction es with
  | nil => 
    intro i _
    exact ⟨fun _ h => (nomatch h), .nil, fun _ _ => rfl, fun _ _ _ _ _ h => nomatch h⟩
  | cons e es ih =>
    intro i hl
    obtain ⟨h1, h2, h3, h4⟩ := ih (i + 1) (fun f hf => hl f (List.mem_cons_of_mem _ hf))
    obtain ⟨a1, a2, a3⟩ := ha i
    refine ⟨fun op hop => ?_, ?_, fun m hm => ?_, fun hal => ?_⟩
    · rcases List.mem_cons.1 hop with rfl | hop
      · refine ⟨hn, fun b hb => ?_, a1, a3⟩
        cases e with
        | none => cases hb
        | some f =>
          cases hb
          have := hl f List.mem_cons_self
          have h1 := List.length_pos_iff.2 a2
          rw [List.length_append, List.length_map]
          omega
      · exact h1 op hop
    · rw [evOps, framesOf, if_pos rfl]
      refine .cons ?_ h2
      cases e with
      | none => exact trivial
      | some f => exact ⟨hl f List.mem_cons_self, _, rfl⟩
    · rw [evOps, framesOf, if_neg (fun h => hm h.symm)]
      exact h3 m hm
    · intro n' w f0 buf hm
      rcases List.mem_cons.1 hm with h | h
      · have : false = (aux i).alloc := (Gw.Op.frame.inj h).2.2.2.2
        rw [hal i] at this; cases this
      · exact h4 hal n' w f0 buf h

/-- the polls and the empty queues among the operations of the gateway -/
def rtpOf : List Gw.Op → List Gw.Op
  | [] => []
  | .frame _ _ _ _ _ :: ops => rtpOf ops
  | .poll n p buf :: ops => .poll n p buf :: rtpOf ops
  | .empty n buf :: ops => .empty n buf :: rtpOf ops

theorem rtpOf_append : ∀ a b : List Gw.Op, rtpOf (a ++ b) = rtpOf a ++ rtpOf b
  | [], _ => rfl
  | .frame _ _ _ _ _ :: a, b => rtpOf_append a b
  | .poll _ _ _ :: a, b => congrArg _ (rtpOf_append a b)
  | .empty _ _ :: a, b => congrArg _ (rtpOf_append a b)

theorem rtpOf_evOps (n : Nat) (aux : Nat → Aux) : ∀ (es : List Ev) (i : Nat), rtpOf (evOps n aux i es) = []
  | [], _ => rfl
  | _ :: es, i => rtpOf_evOps n aux es (i + 1)

/-- outside loop mode frames queue nothing -/
theorem queued_rtp {n : Nat} {ops : List Gw.Op} {ms : List (List Bool)} (h : Queued false n ops ms) : Queued false n (rtpOf ops) ms := by
  induction h with
  | nil => exact .nil
  | @make op m ops ms h t ih =>
    cases op with
    | frame o w f0 buf alloc => exact absurd h (no_mirror (.inl rfl) m)
    | poll o p buf => exact .make h ih
    | empty o buf => exact .make h ih
  | @skip op ops ms h t ih =>
    cases op with
    | frame o w f0 buf alloc => exact ih
    | poll o p buf => exact .skip h ih
    | empty o buf => exact .skip h ih

theorem gw_run_append {K : Codec} : ∀ {a : List Gw.Op} {g g1 g2 : G} {x y : List Act} {b : List Gw.Op}, Gw.run K g a = .ok (g1, x) → Gw.run K g1 b = .ok (g2, y) →
    Gw.run K g (a ++ b) = .ok (g2, x ++ y)
  | [], g, g1, g2, x, y, b, h, h' => by cases h; exact h'
  | op :: a, g, g1, g2, x, y, b, h, h' => by
    rw [Gw.run] at h
    cases hs : Gw.step K g op with
    | error e => rw [hs] at h; cases h
    | ok r =>
      rw [hs, bind_ok] at h
      cases hq : Gw.run K r.1 a with
      | error e => rw [hq] at h; cases h
      | ok q =>
        rw [hq, bind_ok] at h
        cases h
        rw [List.cons_append, Gw.run, hs, bind_ok, gw_run_append hq h', bind_ok, List.append_assoc]

theorem framesOf_append (n : Nat) : ∀ a b : List Gw.Op, framesOf n (a ++ b) = framesOf n a ++ framesOf n b
  | [], _ => rfl
  | op :: a, b => by
    rw [List.cons_append, framesOf_cons, framesOf_append n a b, framesOf_cons n op a, List.append_assoc]

theorem sync_set (l : L) (g : G) {n m : Nat} (s : TrauSync.St) (hn : n = 1 ∨ n = 2) (hm : m = 1 ∨ m = 2) :
    (({ l with g := g } : L).setSync n s).sync m = if m = n then s else l.sync m := by
  rcases hn with rfl | rfl <;> rcases hm with rfl | rfl <;> rfl

theorem set_g (l : L) (g : G) (n : Nat) (s : TrauSync.St) : (({ l with g := g } : L).setSync n s).g = g := by
  unfold L.setSync; split <;> rfl

/-- a history of the line is one of the gateway, whose frames are the events of the synchronisers for the bits received -/
theorem line_run (K : Codec) (gar : Nat → Nat → Nat → Byte) : ∀ (ops : List Op) (l : L), Good l.g → (∀ n, n = 1 ∨ n = 2 → Ok (l.sync n)) → (∀ op ∈ ops, OkOp op) →
    ∃ l' a gops, run K gar l ops = .ok (l', a) ∧ Gw.run K l.g gops = .ok (l'.g, a) ∧ (∀ op ∈ gops, Gw.Spec.OkOp op) ∧ ((∀ op ∈ ops, AllocOk op) → Gw.Spec.AllocOk gops) ∧ rtpOf gops = rtpOps ops ∧
      ∀ n, n = 1 ∨ n = 2 → rxUbits (gar n) (l.sync n) (bitsOf n ops) = .ok (l'.sync n, (runB (gar n) (l.sync n) (bitsOf n ops)).2) ∧
        Gives (framesOf n gops) (runB (gar n) (l.sync n) (bitsOf n ops)).2 := by
  intro ops
  induction ops with
  | nil =>
    intro l _ hs _
    refine ⟨l, [], [], rfl, rfl, fun _ h => (nomatch h), fun _ _ _ _ _ h => (nomatch h), rfl, fun n hn => ⟨rxUbits_eq _ _ _ (hs n hn).inv, .nil⟩⟩
  | cons op ops ih =>
    intro l hg hs ho
    have key : ∀ (l1 : L) (a1 : List Act) (gops1 : List Gw.Op), step K gar l op = .ok (l1, a1) → Gw.run K l.g gops1 = .ok (l1.g, a1) →
        (∀ op ∈ gops1, Gw.Spec.OkOp op) → (AllocOk op → Gw.Spec.AllocOk gops1) → rtpOf gops1 = rtpOps [op] →
        (∀ n, n = 1 ∨ n = 2 → l1.sync n = (runB (gar n) (l.sync n) (bitsOf n [op])).1 ∧ Gives (framesOf n gops1) (runB (gar n) (l.sync n) (bitsOf n [op])).2) →
        ∃ l' a gops, run K gar l (op :: ops) = .ok (l', a) ∧ Gw.run K l.g gops = .ok (l'.g, a) ∧ (∀ op ∈ gops, Gw.Spec.OkOp op) ∧
          ((∀ o ∈ op :: ops, AllocOk o) → Gw.Spec.AllocOk gops) ∧ rtpOf gops = rtpOps (op :: ops) ∧
          ∀ n, n = 1 ∨ n = 2 → rxUbits (gar n) (l.sync n) (bitsOf n (op :: ops)) = .ok (l'.sync n, (runB (gar n) (l.sync n) (bitsOf n (op :: ops))).2) ∧
            Gives (framesOf n gops) (runB (gar n) (l.sync n) (bitsOf n (op :: ops))).2 := by
      intro l1 a1 gops1 e1 e2 e3 e4 e6 e5
      have hg1 : Good l1.g := by
        obtain ⟨g', a', r, r2, -⟩ := run_all K gops1 l.g hg e3
        rw [e2] at r
        cases r
        exact r2
      have hs1 : ∀ n, n = 1 ∨ n = 2 → Ok (l1.sync n) := fun n hn => by rw [(e5 n hn).1]; exact (hs n hn).run _ _
      obtain ⟨l2, a2, gops2, f1, f2, f3, f4, f6, f5⟩ := ih l1 hg1 hs1 (fun o h => ho o (List.mem_cons_of_mem _ h))
      have hb : ∀ n, bitsOf n (op :: ops) = bitsOf n [op] ++ bitsOf n ops := by
        intro n
        cases op with
        | bits m xs aux =>
          by_cases h : m = n
          · simp only [bitsOf, if_pos h, List.append_nil]
          · simp only [bitsOf, if_neg h, List.nil_append]
        | poll m p buf => rfl
        | empty m buf => rfl
      refine ⟨l2, a1 ++ a2, gops1 ++ gops2, ?_, gw_run_append e2 f2, ?_, ?_, by rw [rtpOf_append, e6, f6]; cases op <;> rfl, fun n hn => ?_⟩
      · rw [run, e1, bind_ok, f1, bind_ok]
      · intro o h
        rcases List.mem_append.1 h with h | h
        · exact e3 o h
        · exact f3 o h
      · intro h n w f0 buf hm
        rcases List.mem_append.1 hm with hm | hm
        · exact e4 (h op List.mem_cons_self) n w f0 buf hm
        · exact f4 (fun o h' => h o (List.mem_cons_of_mem _ h')) n w f0 buf hm
      · obtain ⟨k1, k2⟩ := e5 n hn
        obtain ⟨j1, j2⟩ := f5 n hn
        rw [rxUbits_eq _ _ _ (hs1 n hn).inv] at j1
        have j1 := congrArg Prod.fst (Except.ok.inj j1)
        rw [hb, runB_append, framesOf_append, ← k1]
        refine ⟨?_, k2.append j2⟩
        rw [rxUbits_eq _ _ _ (hs n hn).inv, runB_append, ← k1, j1]
    cases op with
    | bits n xs aux =>
      obtain ⟨hn, ha⟩ := ho _ List.mem_cons_self
      have hl := runB_len (gar n) xs _ (hs n hn).inv
      rw [(hs n hn).N] at hl
      obtain ⟨o1, o2, o3, o4⟩ := evOps_ok hn ha (runB (gar n) (l.sync n) xs).2 0 hl
      obtain ⟨g', a', r, -⟩ := run_all K _ l.g hg o1
      refine key ({ l with g := g' }.setSync n (runB (gar n) (l.sync n) xs).1) a' (evOps n aux 0 (runB (gar n) (l.sync n) xs).2) ?_ ?_ o1 o4 (rtpOf_evOps _ _ _ _) ?_
      · rw [step, rxUbits_eq _ _ _ (hs n hn).inv, bind_ok]
        dsimp only
        rw [r, bind_ok]
      · rw [set_g]; exact r
      · intro m hm
        rw [sync_set l g' _ hn hm]
        by_cases h : m = n
        · subst h
          have : bitsOf m [Op.bits m xs aux] = xs := by simp [bitsOf]
          rw [if_pos rfl, this]
          exact ⟨rfl, o2⟩
        · have : bitsOf m [Op.bits n xs aux] = [] := by simp only [bitsOf, if_neg (show ¬ n = m from fun h' => h h'.symm)]
          rw [if_neg h, this, o3 m h]
          exact ⟨rfl, .nil⟩
    | poll n p buf =>
      obtain ⟨g', a', r, -⟩ := step_did K hg (op := .poll n p buf) (ho _ List.mem_cons_self)
      refine key { l with g := g' } a' [.poll n p buf] ?_ ?_ ?_ (fun _ n w f0 buf h => by cases List.mem_singleton.1 h) rfl ?_
      · rw [step, r, bind_ok]
      · have : Gw.run K g' [] = .ok (g', []) := rfl
        rw [run_cons r this, List.append_nil]
      · intro o h
        rw [List.mem_singleton.1 h]
        exact ho _ List.mem_cons_self
      · exact fun m hm => ⟨by unfold L.sync; rfl, .nil⟩
    | empty n buf =>
      obtain ⟨g', a', r, -⟩ := step_did K hg (op := .empty n buf) (ho _ List.mem_cons_self)
      refine key { l with g := g' } a' [.empty n buf] ?_ ?_ ?_ (fun _ n w f0 buf h => by cases List.mem_singleton.1 h) rfl ?_
      · rw [step, r, bind_ok]
      · have : Gw.run K g' [] = .ok (g', []) := rfl
        rw [run_cons r this, List.append_nil]
      · intro o h
        rw [List.mem_singleton.1 h]
        exact ho _ List.mem_cons_self
      · exact fun m hm => ⟨by unfold L.sync; rfl, .nil⟩

/-! ### the RTP stream -/

/-- what is sent for a frame depends on its 320 bits only -/
theorem sends_take {a b : List Bool} (h : a.take 320 = b.take 320) {pl : List Byte} (hs : Sends a pl) : Sends b pl := by
  have e1 : dBits a = dBits b := by rw [← dBits_take (w := a) (n := 320) (by omega), h, dBits_take (by omega)]
  have e2 : cCode a = cCode b := by
    unfold cCode
    rw [← sub_take (w := a) (n := 320) (by omega), h, sub_take (by omega)]
  have e3 : a[28]? = b[28]? := by
    have := congrArg (·[28]?) h
    simpa only [List.getElem?_take, if_pos (show 28 < 320 by omega)] using this
  cases hs with
  | fr d c g p => rw [e1] at p; rw [e2] at c; rw [e3] at g; exact .fr d c g p
  | efr c g k p => rw [e1] at p k; rw [e2] at c; rw [e3] at g; exact .efr c g k p

theorem given_take {b : List Bool} {f : List Byte} (h : given (some b) (some f)) : b.take 320 = (frameBits f).take 320 := by
  obtain ⟨hl, r, rfl⟩ := h
  rw [List.take_append_of_le_length (by simp [Spec.frameBits, hl])]

theorem stream_gives {ts : BitVec 32} {ws : List (Option (List Bool))} {as : List Ortp.Act} (h : Stream ts ws as) :
    ∀ {es : List Ev}, Gives ws es → Stream ts (es.map (Option.map frameBits)) as := by
  induction h with
  | nil => intro es hg; cases hg; exact .nil _
  | @send ts w pl ws as h _ ih =>
    intro es hg
    cases hg with
    | @cons _ e _ es g t =>
      cases e with
      | none => cases g
      | some f => exact .send (sends_take (given_take g) h) (ih t)
  | @skip ts w ws as h _ ih =>
    intro es hg
    cases hg with
    | @cons _ e _ es g t =>
      refine .skip ?_ (ih t)
      intro b hb pl hs
      cases e with
      | none => cases hb
      | some f =>
        cases hb
        cases w with
        | none => cases g
        | some w => exact h w rfl pl (sends_take (given_take g).symm hs)

/-- the initial state -/
theorem init_line (loop : Bool) (r1 r2 : BitVec 32) : ∃ l, init loop r1 r2 true true = some (.ok l) ∧ Good l.g ∧ l.g.loop = loop ∧
    (l.g.sub 1).rs.txTs = r1 ∧ (l.g.sub 2).rs.txTs = r2 ∧ ∀ n, n = 1 ∨ n = 2 → l.sync n = s0 := by
  obtain ⟨g, h1, h2, h3, h4, h5⟩ := init_good loop r1 r2
  refine ⟨⟨g, s0, s0⟩, ?_, h2, h3, h4, h5, ?_⟩
  · rw [init, alloc_s0, h1]; rfl
  · rintro n (rfl | rfl) <;> rfl

/-- whatever bits arrive on the two sub-slots, however they are cut, whatever packets are received in between: nothing fails -/
theorem C172_safe (K : Codec) (gar : Nat → Nat → Nat → Byte) (loop : Bool) (r1 r2 : BitVec 32) (ops : List Op) (h : ∀ op ∈ ops, OkOp op) :
    ∃ l l' a, init loop r1 r2 true true = some (.ok l) ∧ run K gar l ops = .ok (l', a) := by
  obtain ⟨l, e, hg, -, -, -, hs⟩ := init_line loop r1 r2
  obtain ⟨l', a, gops, r, -⟩ := line_run K gar ops l hg (fun n hn => by rw [hs n hn]; exact ok_s0) h
  exact ⟨l, l', a, e, r⟩

/-- the RTP stream of a sub-slot is that of the frames its synchroniser finds in the bits received on that sub-slot: it does not depend on how they are cut,
on the other sub-slot or on what is received by RTP -/
theorem C172_line (K : Codec) (gar : Nat → Nat → Nat → Byte) (r1 r2 : BitVec 32) (ops : List Op) (h : ∀ op ∈ ops, OkOp op) (ha : ∀ op ∈ ops, AllocOk op) :
    ∃ l l' a, init false r1 r2 true true = some (.ok l) ∧ run K gar l ops = .ok (l', a) ∧ ∀ n, n = 1 ∨ n = 2 →
      ∃ s es, rxUbits (gar n) s0 (bitsOf n ops) = .ok (s, es) ∧
        Stream (if n = 1 then r1 else r2) (es.map (Option.map frameBits)) (sentOf n a) ∧
        (l'.g.sub n).rs.txTs = (if n = 1 then r1 else r2) + 160 * BitVec.ofNat 32 es.length := by
  obtain ⟨l, e, hg, hl, t1, t2, hs⟩ := init_line false r1 r2
  obtain ⟨l', a, gops, r, q1, q2, q3, -, q4⟩ := line_run K gar ops l hg (fun n hn => by rw [hs n hn]; exact ok_s0) h
  obtain ⟨g', a', k, -, -, -, k4, -⟩ := run_all K gops l.g hg q2
  rw [q1] at k
  cases k
  refine ⟨l, l', a, e, r, fun n hn => ?_⟩
  obtain ⟨p1, p2⟩ := q4 n hn
  rw [hs n hn] at p1 p2
  obtain ⟨v1, v2⟩ := k4 hl (q3 ha) n hn
  have ht : (l.g.sub n).rs.txTs = if n = 1 then r1 else r2 := by
    rcases hn with rfl | rfl
    · exact t1
    · exact t2
  rw [ht] at v1 v2
  refine ⟨_, _, p1, stream_gives v2 p2, ?_⟩
  rw [v1, p2.length]

/-- what is queued for the E1 side does not depend on the bits received: it is one frame for each packet with speech or without data and for each empty queue -/
theorem C172_downlink (K : Codec) (gar : Nat → Nat → Nat → Byte) (r1 r2 : BitVec 32) (ops : List Op) (h : ∀ op ∈ ops, OkOp op) :
    ∃ l l' a, init false r1 r2 true true = some (.ok l) ∧ run K gar l ops = .ok (l', a) ∧ ∀ n, n = 1 ∨ n = 2 →
      Queued false n (rtpOps ops) (enqOf n a) ∧ ∀ m ∈ enqOf n a, m.length = 320 := by
  obtain ⟨l, e, hg, hl, -, -, hs⟩ := init_line false r1 r2
  obtain ⟨l', a, gops, r, q1, q2, -, q3, -⟩ := line_run K gar ops l hg (fun n hn => by rw [hs n hn]; exact ok_s0) h
  obtain ⟨g', a', k, -, -, k3, -⟩ := run_all K gops l.g hg q2
  rw [q1] at k
  cases k
  refine ⟨l, l', a, e, r, fun n hn => ?_⟩
  obtain ⟨v1, v2⟩ := k3 n hn
  rw [hl] at v1
  exact ⟨q3 ▸ queued_rtp v1, v2⟩

/-! ### acquisition and alignment -/

theorem window_block (pre b r : List Byte) (hb : b.length = 320) : window (pre ++ b ++ r) p0.nbits (pre.length + 320) = b := by
  unfold window
  rw [p0_nbits, List.take_left' (by simp [hb]), show pre.length + 320 - 320 = pre.length by omega, List.drop_left]

theorem quiet_window {pre b r : List Byte} (hb : b.length = 320) (hq : Quiet pre b) (j : Nat) (h1 : p0.nbits ≤ j) (h2 : j < pre.length + 320) :
    ¬ Matches p0 (window (pre ++ b ++ r) p0.nbits j) := by
  rw [p0_nbits] at h1
  have e : window (pre ++ b ++ r) p0.nbits j = ((pre ++ b).drop (j - 320)).take 320 := by
    unfold window
    rw [p0_nbits, List.take_append_of_le_length (by simp [hb]; omega), List.drop_take]
    congr 1
    omega
  intro hm
  rw [e] at hm
  refine hq (j - 320) (by omega) ((aligned_iff _).2 ⟨?_, hm⟩)
  rw [List.length_take, List.length_drop, List.length_append, hb]
  omega

/-- the events for a stream of frames after some other bits -/
theorem stream_events (g : Nat → Nat → Byte) {pre b : List Byte} {bs : List (List Byte)} (hb : Aligned b) (hq : Quiet pre b)
    (hl : ∀ x ∈ bs, x.length = 320) (hn : NoLoss bs) :
    ∃ s, rxUbits g s0 (pre ++ (b :: bs).flatten) = .ok (s, (b :: bs).map some) := by
  obtain ⟨b1, b2⟩ := (aligned_iff b).1 hb
  have hx : pre ++ (b :: bs).flatten = pre ++ b ++ bs.flatten := by simp
  rw [hx]
  have hlen : pre.length + 320 ≤ (pre ++ b ++ bs.flatten).length := by simp [b1]
  obtain ⟨s1, e1, c1, c2, c3, c4⟩ := TrauSync.C18_first_match g 0 s0 p0 alloc_s0 rfl (pre ++ b ++ bs.flatten) (pre.length + 320) (by rw [p0_nbits]; omega) hlen
    (by rw [window_block _ _ _ b1]; exact b2) (fun j j1 j2 => quiet_window b1 hq j j1 j2)
  rw [window_block _ _ _ b1] at e1
  have ht : (pre ++ b ++ bs.flatten).take (pre.length + 320) = pre ++ b := List.take_left' (by simp [b1])
  rw [ht] at e1
  have reach : TrauSync.Reach g s1 := .step (o := .rx (pre ++ b)) (.alloc alloc_s0) trivial e1
  have hF : ∀ x, x.length = 320 → (TrauSync.Fails s1 x ↔ ¬ Aligned x) := by
    intro x hx
    unfold TrauSync.Fails
    rw [c4, aligned_iff]
    constructor
    · exact fun h h' => h p0 (by simp [s0]) h'.2
    · rintro h p hp
      have : p = p0 := by simpa [s0] using hp
      subst this
      exact fun hm => h ⟨hx, hm⟩
  obtain ⟨s2, e2, -⟩ := TrauSync.C19_keeps_alignment g s1 reach ⟨c1, c2, c3⟩ p0 (by rw [c4]; rfl) bs (by rw [p0_nbits]; exact hl) (by
    intro p x y z q hbs hxyz
    refine hn p x y z q hbs ⟨(hF x (hl x ?_)).1 hxyz.1, (hF y (hl y ?_)).1 hxyz.2.1, (hF z (hl z ?_)).1 hxyz.2.2⟩ <;> rw [hbs] <;> simp)
  obtain ⟨t1, x1, t2, x2, f1, f2, f3⟩ := TrauSync.C15_chunking g s0 (.alloc alloc_s0) (pre ++ b) bs.flatten
  rw [e1] at f1
  cases f1
  rw [e2] at f2
  cases f2
  exact ⟨_, f3⟩

/-- a sub-slot on which, after some other bits, frames arrive back to back: every good speech frame is sent, at the time stamp that belongs to its place -/
theorem C172_uplink (K : Codec) (gar : Nat → Nat → Nat → Byte) (r1 r2 : BitVec 32) (ops : List Op) (h : ∀ op ∈ ops, OkOp op) (ha : ∀ op ∈ ops, AllocOk op) :
    ∃ l l' a, init false r1 r2 true true = some (.ok l) ∧ run K gar l ops = .ok (l', a) ∧ ∀ n, n = 1 ∨ n = 2 →
      ∀ pre b bs, bitsOf n ops = pre ++ (b :: bs).flatten → Aligned b → Quiet pre b → (∀ x ∈ bs, x.length = 320) → NoLoss bs →
        Stream (if n = 1 then r1 else r2) ((b :: bs).map fun f => some (frameBits f)) (sentOf n a) := by
  obtain ⟨l, l', a, e1, e2, e3⟩ := C172_line K gar r1 r2 ops h ha
  refine ⟨l, l', a, e1, e2, fun n hn pre b bs hx hb hq hl hnl => ?_⟩
  obtain ⟨s, es, k1, k2, -⟩ := e3 n hn
  obtain ⟨s', k⟩ := stream_events (gar n) hb hq hl hnl
  rw [hx, k] at k1
  cases k1
  rw [List.map_map] at k2
  exact k2

/-! ### the clock while there is no alignment -/

/-- 320 ones -/
def ones : List Byte := List.replicate 320 1

theorem ones_bad : ¬ Aligned ones := by
  intro h
  have := h.2.1 0 (by decide)
  rw [ones, List.getElem?_replicate, if_pos (by decide)] at this
  revert this; decide

/-- a block of ones, if the history behind the block is ones too -/
theorem ones_block (g : Nat → Nat → Byte) {s : TrauSync.St} (h : Ok s) (hf : s.fsm = .aligned) (h0 : s.idx = 0) (ht : s.hist.drop 320 = List.replicate 961 1) :
    runB g s ones = if (s.errs + 1) % 2 ^ 32 ≥ 3 then
        ({ s with hist := List.replicate HIST 1, idx := 0, errs := (s.errs + 1) % 2 ^ 32, fsm := .lost, timer := true }, [none])
      else ({ s with hist := List.replicate HIST 1, idx := 0, errs := (s.errs + 1) % 2 ^ 32 }, [some ones]) := by
  have hl : ones.length = 320 := List.length_replicate
  have hp : TrauSync.put s.hist s.idx ones = List.replicate HIST 1 := by
    unfold TrauSync.put
    rw [h0, hl, Nat.zero_add, ht, ones, List.take_zero, List.nil_append, List.replicate_append_replicate]
    rfl
  have hN : ∀ (x : List Byte) (i : Nat), N { s with hist := x, idx := i } = 320 := fun x i => h.N
  have ho : (List.replicate HIST (1 : Byte)).take 320 = ones := by
    rw [List.take_replicate]; rfl
  rw [TrauSync.runB_block g ones s hf (by rw [ones]; exact (by decide : List.replicate 320 (1 : Byte) ≠ [])) (by rw [h0, h.N, hl]) (by rw [h.N, h.inv.len]; decide)]
  rw [hp]
  unfold TrauSync.blockEnd
  rw [hN]
  dsimp only
  rw [ho, h.pats]
  have hno : ¬ ∃ p ∈ s0.pats.filterMap id, Matches p ones := by
    rintro ⟨p, hp, hm⟩
    have : p = p0 := by simpa [s0] using hp
    subst this
    exact ones_bad ((aligned_iff _).2 ⟨hl, hm⟩)
  rw [if_neg hno]

/-- the events for a frame, a loss of alignment that lasts for `3 + m` frames of ones, and the same frame again -/
theorem loss_events {b : List Byte} (hb : Aligned b) (m : Nat) :
    ∃ s, rxUbits (fun _ _ => 1) s0 (b ++ (ones ++ (ones ++ (ones ++ (List.replicate (320 * m) 1 ++ b))))) = .ok (s, [some b, some ones, some ones, none, some b]) := by
  obtain ⟨b1, b2⟩ := (aligned_iff b).1 hb
  have hw : window b p0.nbits 320 = b := by
    unfold window
    rw [p0_nbits, List.take_of_length_le (by omega)]; rfl
  have hfirst : ∀ s : TrauSync.St, Ok s → s.fsm ≠ .aligned → ring s = List.replicate HIST 1 → ∃ s', rxUbits (fun _ _ => 1) s b = .ok (s', [some b]) ∧
      s'.fsm = .aligned ∧ s'.idx = 0 ∧ s'.errs = s.errs ∧ s'.hist.drop 320 = List.replicate 961 1 := by
    intro s hs hf hr
    have hp : prim s = p0 := by unfold prim; rw [hs.pats]; rfl
    obtain ⟨s', k1, k2, k3, k4, -, k5⟩ := TrauSync.first_match_hist (fun _ _ => 1) s p0 hs.inv hf hp (List.getElem_mem _) hr b 320 (by rw [p0_nbits]; omega) (by omega)
      (by rw [hw]; exact b2) (fun j j1 j2 => by rw [p0_nbits] at j1; omega)
    rw [hw] at k1 k5
    rw [List.take_of_length_le (by omega)] at k1
    refine ⟨s', k1, k2, k3, k4, ?_⟩
    rw [k5, List.drop_left' b1, hs.N]
    rw [List.map_const', List.length_range]
    rfl
  obtain ⟨s1, e1, c1, c2, c3, c4⟩ := hfirst s0 ok_s0 (by decide) (by simp [ring, s0])
  have e1' := e1
  rw [rxUbits_eq _ _ _ ok_s0.inv] at e1'
  have q1 : runB (fun _ _ => 1) s0 b = (s1, [some b]) := Except.ok.inj e1'
  have o1 : Ok s1 := by have := ok_s0.run (fun _ _ => 1) b; rw [q1] at this; exact this
  have q2 := ones_block (fun _ _ => 1) o1 c1 c2 c4
  rw [show s1.errs = 0 from c3, if_neg (by decide)] at q2
  have o2 := o1.run (fun _ _ => 1) ones
  rw [q2] at o2
  have hd : (List.replicate HIST (1 : Byte)).drop 320 = List.replicate 961 1 := by rw [List.drop_replicate]; rfl
  have q3 := ones_block (fun _ _ => 1) o2 c1 rfl hd
  rw [if_neg (by show ¬ ((0 + 1) % 2 ^ 32 + 1) % 2 ^ 32 ≥ 3; decide)] at q3
  have o3 := o2.run (fun _ _ => 1) ones
  rw [q3] at o3
  have q4 := ones_block (fun _ _ => 1) o3 c1 rfl hd
  rw [if_pos (by show (((0 + 1) % 2 ^ 32 + 1) % 2 ^ 32 + 1) % 2 ^ 32 ≥ 3; decide)] at q4
  have o4 := o3.run (fun _ _ => 1) ones
  rw [q4] at o4
  obtain ⟨s5, q5, i5, f5, p5, r5⟩ := TrauSync.ones_of (fun _ _ => 1) _ p0 o4.inv (by show TrauSync.Fsm.lost ≠ .aligned; decide) (by unfold prim; rw [o4.pats]; rfl) (List.getElem_mem _)
    (by simp [ring]) (320 * m)
  rw [rxUbits_eq _ _ _ o4.inv] at q5
  have q5 := Except.ok.inj q5
  have o5 : Ok s5 := ⟨i5, p5.trans o4.pats⟩
  obtain ⟨s6, q6, -⟩ := hfirst s5 o5 f5 r5
  rw [rxUbits_eq _ _ _ i5] at q6
  have q6 := Except.ok.inj q6
  refine ⟨s6, ?_⟩
  rw [rxUbits_eq _ _ _ ok_s0.inv]
  simp only [runB_append, q1, q2, q3, q4, q5, q6, List.nil_append, List.cons_append]

/-- frames of ones are not sent -/
theorem ones_silent (pl : List Byte) : ¬ Sends (frameBits ones) pl := by
  have e : cCode (frameBits ones) = [true, true, true, true, true] := by decide +kernel
  intro h
  cases h with
  | fr d c => rw [e] at c; exact absurd c (by cases d <;> decide)
  | efr c => rw [e] at c; exact absurd c (by decide)

/-- the clock stops while there is no alignment: a speech frame `4 + m` frames after the first one is sent with a time stamp 4 frames after it,
however large `m` is (here the memory the synchroniser does not initialise contains ones) -/
theorem C172_clock_violated (K : Codec) (r1 r2 : BitVec 32) {b : List Byte} (hb : Aligned b) {pl : List Byte} (hs : Sends (frameBits b) pl) (m : Nat)
    {aux : Nat → Aux} (ha : ∀ i, (aux i).f0.WF ∧ (aux i).after ≠ [] ∧ (aux i).buf.length = 640) (hal : ∀ i, (aux i).alloc = true) :
    ∃ l l' a, init false r1 r2 true true = some (.ok l) ∧ run K (fun _ _ _ => 1) l [.bits 1 (b ++ List.replicate (320 * (3 + m)) 1 ++ b) aux] = .ok (l', a) ∧
      sentOf 1 a = [.send r1 false pl, .send (r1 + 640) false pl] := by
  obtain ⟨l, l', a, e1, e2, e3⟩ := C172_line K (fun _ _ _ => 1) r1 r2 [.bits 1 (b ++ List.replicate (320 * (3 + m)) 1 ++ b) aux]
    (fun op h => by rw [List.mem_singleton.1 h]; exact ⟨.inl rfl, ha⟩) (fun op h => by rw [List.mem_singleton.1 h]; exact hal)
  obtain ⟨s, es, k1, k2, -⟩ := e3 1 (.inl rfl)
  refine ⟨l, l', a, e1, e2, ?_⟩
  have hx : bitsOf 1 [Op.bits 1 (b ++ List.replicate (320 * (3 + m)) 1 ++ b) aux] = b ++ (ones ++ (ones ++ (ones ++ (List.replicate (320 * m) 1 ++ b)))) := by
    have : List.replicate (320 * (3 + m)) (1 : Byte) = ones ++ (ones ++ (ones ++ List.replicate (320 * m) 1)) := by
      unfold ones
      simp only [List.replicate_append_replicate]
      congr 1
      omega
    rw [this]
    simp [bitsOf]
  obtain ⟨s', k⟩ := loss_events hb m
  rw [hx, k] at k1
  cases k1
  rw [if_pos rfl] at k2
  refine C171_stream_unique k2 (.send hs (.skip ?_ (.skip ?_ (.skip (fun b h => nomatch h) ?_))))
  · intro w hw; cases hw; exact ones_silent
  · intro w hw; cases hw; exact ones_silent
  · have : r1 + 160 + 160 + 160 + 160 = r1 + 640 := by
      simp only [BitVec.add_assoc]; rfl
    rw [this]
    exact .send hs (.nil _)

/-! ### concrete cases -/

/-- the frame of the example of C171, as octets -/
def exB : List Byte := exFrW.take 320 |>.map fun x => if x then 1 else 0

theorem exB_aligned : Aligned exB := by
  refine ⟨by decide +kernel, by decide +kernel, by decide +kernel⟩
theorem exB_sends : Sends (frameBits exB) (frPayload (reverseEach frWidths (dBits (frameBits exB)))) :=
  .fr .ul (by decide +kernel) (by decide +kernel) (frPayload_isFr (by decide +kernel))

/-- a stream with 100 bits before the first frame, an unaligned frame and two more frames -/
example : Aligned exB ∧ Quiet (List.replicate 100 1) exB ∧ (∀ x ∈ [exB, ones, exB, exB], x.length = 320) ∧ NoLoss [exB, ones, exB, exB] := by
  refine ⟨exB_aligned, ?_, ?_, ?_⟩
  · intro k hk h
    have := h.2.1 0 (by decide)
    rw [List.length_replicate] at hk
    rw [List.getElem?_take, if_pos (by decide), List.getElem?_drop, List.getElem?_append_left (by simp; omega), List.getElem?_replicate, if_pos (by omega)] at this
    revert this; decide
  · intro x hx
    simp only [List.mem_cons, List.not_mem_nil, or_false] at hx
    rcases hx with rfl | rfl | rfl | rfl
    · exact exB_aligned.1
    · exact List.length_replicate
    · exact exB_aligned.1
    · exact exB_aligned.1
  · rintro p x y z q h ⟨h1, h2, h3⟩
    have n1 : ∀ x, ¬ Aligned x → x ∈ [exB, ones, exB, exB] → x = ones := by
      intro x hx hm
      simp only [List.mem_cons, List.not_mem_nil, or_false] at hm
      rcases hm with rfl | rfl | rfl | rfl
      · exact absurd exB_aligned hx
      · rfl
      · exact absurd exB_aligned hx
      · exact absurd exB_aligned hx
    have hx := n1 x h1 (by rw [h]; simp)
    have hy := n1 y h2 (by rw [h]; simp)
    have hne : exB ≠ ones := fun e => ones_bad (e ▸ exB_aligned)
    subst hx hy
    match p, h with
    | [], h => exact hne (List.cons.inj h).1
    | [_], h => exact hne (List.cons.inj (List.cons.inj (List.cons.inj h).2).2).1
    | [_, _], h => exact hne (List.cons.inj (List.cons.inj (List.cons.inj h).2).2).1
    | [_, _, _], h => exact hne (List.cons.inj (List.cons.inj (List.cons.inj (List.cons.inj h).2).2).2).1
    | _ :: _ :: _ :: _ :: p, h =>
      have := congrArg List.length h
      simp at this

/-- histories as in the theorems: the bits of the stream in pieces, with packets in between -/
example : ∀ op ∈ [Op.bits 1 (exB.take 77) (fun _ => ⟨zeroFrame .none, [true], List.replicate 640 false, true⟩), Op.empty 2 (List.replicate 640 false),
    Op.bits 1 (exB.drop 77) (fun _ => ⟨zeroFrame .none, [true], List.replicate 640 false, true⟩)], OkOp op ∧ AllocOk op := by
  intro op h
  simp only [List.mem_cons, List.not_mem_nil, or_false] at h
  rcases h with rfl | rfl | rfl
  · exact ⟨⟨.inl rfl, fun _ => ⟨zeroFrame_WF _, by simp, List.length_replicate⟩⟩, fun _ => rfl⟩
  · exact ⟨⟨.inr rfl, List.length_replicate⟩, trivial⟩
  · exact ⟨⟨.inl rfl, fun _ => ⟨zeroFrame_WF _, by simp, List.length_replicate⟩⟩, fun _ => rfl⟩

end Verif.Gw.Line
