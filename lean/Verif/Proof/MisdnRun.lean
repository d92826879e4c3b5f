import Verif.Proof.MisdnUpd
set_option maxRecDepth 10000
namespace Verif.Misdn

/-! ### Histories -/

theorem onSlot_inv {w w' : W} {l t : Nat} {r : M (Slot × List Act)} {a : Acts} (h : onSlot w l t r = .ok (w', a)) :
    ∃ s b, r = .ok (s, b) ∧ w' = setS w l t s ∧ a = tag l t b := by
  unfold onSlot at h
  cases r with
  | error e => cases h
  | ok p => obtain ⟨s, b⟩ := p; cases h; exact ⟨s, b, rfl, rfl, rfl⟩

theorem onBoth_inv {w w' : W} {l t : Nat} {r : M Res} {a : Acts} (h : onBoth w l t r = .ok (w', a)) :
    ∃ x s b, r = .ok (x, s, b) ∧ w' = setL (setS w l t s) l x ∧ a = tag l t b := by
  unfold onBoth at h
  cases r with
  | error e => cases h
  | ok p => obtain ⟨x, s, b⟩ := p; cases h; exact ⟨x, s, b, rfl, rfl, rfl⟩

theorem run_cons {E : Env} {w w' : W} {op : Op} {ops : List Op} {a : Acts} (h : run E w (op :: ops) = .ok (w', a)) :
    ∃ w1 a1 a2, step E w op = .ok (w1, a1) ∧ run E w1 ops = .ok (w', a2) ∧ a = a1 ++ a2 := by
  simp only [run, bind, Except.bind] at h
  cases h1 : step E w op with
  | error e => rw [h1] at h; cases h
  | ok p =>
    obtain ⟨w1, a1⟩ := p
    rw [h1] at h
    simp only at h
    cases h2 : run E w1 ops with
    | error e => rw [h2] at h; cases h
    | ok p2 =>
      obtain ⟨w2, a2⟩ := p2
      rw [h2] at h
      cases h
      exact ⟨w1, a1, a2, rfl, h2, rfl⟩

theorem wantWrite_eq (s : Slot) : wantWrite s = { s with wr := (wantWrite s).wr } := by
  unfold wantWrite; split <;> rfl

theorem wantWrite_wr {s : Slot} (h : s.ty = .sign ∨ s.ty = .raw ∨ s.ty = .hdlc) : (wantWrite s).wr = true := by
  unfold wantWrite
  rw [if_neg (by rcases h with e | e | e <;> rw [e] <;> intro g <;> rcases g with g | g <;> cases g)]

theorem timeout_eq (s : Slot) : timeout s = { s with timer := false, wr := (timeout s).wr } := by
  unfold timeout; rw [wantWrite_eq]

theorem timeout_wr {s : Slot} (h : s.ty = .sign ∨ s.ty = .raw ∨ s.ty = .hdlc) : (timeout s).wr = true := wantWrite_wr (s := { s with timer := false }) h

theorem send_eq {s s' : Slot} {m : Msg} {a : List Act} (h : send s m = .ok (s', a)) :
    a = [] ∧ (∃ wr, s' = { s with wr := wr, q := s.q ++ [m] }) ∧ (s.ty = .sign ∨ s.ty = .raw ∨ s.ty = .hdlc) ∧
      (s.ty = .sign → s'.wr = true ∨ s'.timer = true) ∧ (s.ty = .raw ∨ s.ty = .hdlc → s'.wr = true) := by
  unfold send at h
  cases ht : s.ty <;> simp only [ht] at h
  case sign =>
    cases h
    cases htm : s.timer with
    | true => exact ⟨rfl, ⟨s.wr, by simp [ht, htm]⟩, .inl rfl, fun _ => .inr (by simpa using htm), by intro g; rcases g with g | g <;> cases g⟩
    | false =>
      have := wantWrite_wr (s := s) (.inl ht)
      refine ⟨rfl, ⟨true, ?_⟩, .inl rfl, fun _ => .inl (by simpa using this), by intro g; rcases g with g | g <;> cases g⟩
      rw [wantWrite_eq s, this]; simp [ht, htm]
  case raw =>
    cases h
    have := wantWrite_wr (s := s) (.inr (.inl ht))
    refine ⟨rfl, ⟨true, ?_⟩, .inr (.inl rfl), by (intro g; cases g), fun _ => this⟩
    rw [wantWrite_eq s, this]; simp [ht]
  case hdlc =>
    cases h
    have := wantWrite_wr (s := s) (.inr (.inr ht))
    refine ⟨rfl, ⟨true, ?_⟩, .inr (.inr rfl), by (intro g; cases g), fun _ => this⟩
    rw [wantWrite_eq s, this]; simp [ht]
  all_goals cases h

theorem free_acts (q : List Msg) : (∀ s, Balanced s (q.map Act.free) s) ∧ (∀ ty, wentOut ty (q.map Act.free) = []) ∧ accepted (q.map Act.free) = 0 ∧ sigs (q.map Act.free) = [] := by
  induction q with
  | nil => exact ⟨fun _ => rfl, fun _ => rfl, rfl, rfl⟩
  | cons m q ih => exact ih

theorem config_eq (s : Slot) (ty : Ty) : (config s ty).1 = { s with ty := ty, q := (config s ty).1.q, timer := (config s ty).1.timer, links := (config s ty).1.links } ∧
    ((config s ty).2 = [] ∨ (config s ty).2 = s.q.map Act.free) ∧ ((config s ty).1.q = s.q ∨ (config s ty).1.q = []) := by
  unfold config
  split
  · rename_i h; subst h; exact ⟨rfl, .inl rfl, .inl rfl⟩
  · exact ⟨rfl, .inr rfl, .inr rfl⟩

theorem addLink_eq (s : Slot) (tei sapi : Nat) : addLink s tei sapi = { s with links := (addLink s tei sapi).links } := by
  unfold addLink; split <;> rfl

theorem lapdTx_inv {s s' : Slot} {m : Msg} {n : Int} {a : List Act} (h : lapdTx s m n = .ok (s', a)) : s' = s ∧ ∃ d, a = [.send s.fd d n] := by
  unfold lapdTx at h
  cases hp : push m (head PH_DATA_REQ 0) with
  | error e => rw [hp] at h; cases h
  | ok d => rw [hp] at h; cases h; exact ⟨rfl, d, rfl⟩

/-! ### Signals of a line, in all histories -/

theorem finish_sigs (ul : Bool) (s : Slot) (a : Ans) : sigs (finish ul s a).2.1 = [] := by
  unfold finish; repeat' split
  all_goals rfl

theorem setUp_sigs (ul : Bool) (dev t : Nat) (s : Slot) (a : Ans) : sigs (setUp ul dev t s a).2.1 = [] := by
  unfold setUp
  split
  · rfl
  · simp only []
    split
    · rfl
    · exact finish_sigs ..

theorem updSlot_sigs (ul : Bool) (dev t : Nat) (s : Slot) (a : Ans) : sigs (updSlot ul dev t s a).2.1 = [] := by
  unfold updSlot
  split
  · rfl
  · split
    · exact (tearDown_acts s).2.2.1
    · simp only []
      rw [sigs_append, (tearDown_acts s).2.2.1, setUp_sigs]; rfl

theorem updTs_sigs (E : Env) (n l : Nat) : ∀ (ts : List Nat) (w : W), (∀ x, signals x (updTs E n l ts w).2.1 = []) ∧ (updTs E n l ts w).1.line = w.line := by
  intro ts
  induction ts with
  | nil => intro w; exact ⟨fun _ => rfl, rfl⟩
  | cons t ts ih =>
    intro w
    have k : ∀ x, signals x (tag l t (updSlot (w.ul l) (w.line l).port t (w.s l t) (E.ans n t)).2.1) = [] := by
      intro x; rw [signals_tag, updSlot_sigs]; split <;> rfl
    simp only [updTs]
    split
    · exact ⟨k, rfl⟩
    · exact ⟨fun x => by rw [signals_append, k, (ih _).1]; rfl, (ih _).2⟩

theorem dummyCh_sigs (E : Env) (n : Nat) (ul sign : Bool) (x : Line) : sigs (dummyCh E n ul sign x).2.1 = [] ∧ (dummyCh E n ul sign x).1.st = x.st := by
  unfold dummyCh; repeat' split
  all_goals exact ⟨rfl, rfl⟩

theorem lineUpdate_sigs (E : Env) (w : W) (l : Nat) : (∀ x, signals x (lineUpdate E w l).2.1 = []) ∧ ∀ x, ((lineUpdate E w l).1.line x).st = (w.line x).st := by
  unfold lineUpdate
  simp only []
  split
  · exact ⟨fun _ => rfl, fun _ => rfl⟩
  · generalize slots.any (fun t => decide ((w.s l t).ty = .sign)) = sg
    obtain ⟨d1, d2⟩ := dummyCh_sigs E w.upd (w.ul l) sg (w.line l)
    generalize dummyCh E w.upd (w.ul l) sg (w.line l) = D at *
    have k : ∀ x, signals x (tag l 0 D.2.1) = [] := by intro x; rw [signals_tag, d1]; split <;> rfl
    have k2 : ∀ x, ((setL { w with upd := w.upd + 1 } l D.1).line x).st = (w.line x).st := by
      intro x
      by_cases g : x = l
      · subst g; rw [setL_self]; exact d2
      · rw [setL_other _ g]
    split
    · exact ⟨k, k2⟩
    · obtain ⟨u1, u2⟩ := updTs_sigs E w.upd l slots (setL { w with upd := w.upd + 1 } l D.1)
      exact ⟨fun x => by rw [signals_append, k, u1]; rfl, fun x => by rw [u2]; exact k2 x⟩

theorem step_coh {E : Env} {w w' : W} {op : Op} {a : Acts} (h : step E w op = .ok (w', a)) (x : Nat) :
    Coherent (w.line x).st none (signals x a) ∧ (signals x a).foldl after (w.line x).st = (w'.line x).st := by
  have quiet : signals x a = [] → (w'.line x).st = (w.line x).st →
      Coherent (w.line x).st none (signals x a) ∧ (signals x a).foldl after (w.line x).st = (w'.line x).st := by
    intro g1 g2; rw [g1, g2]; exact ⟨rfl, rfl⟩
  have on : ∀ {l t : Nat} {r : M (Slot × List Act)}, onSlot w l t r = .ok (w', a) → (∀ s b, r = .ok (s, b) → sigs b = []) →
      Coherent (w.line x).st none (signals x a) ∧ (signals x a).foldl after (w.line x).st = (w'.line x).st := by
    intro l t r g k
    obtain ⟨s, b, e1, rfl, rfl⟩ := onSlot_inv g
    refine quiet ?_ rfl
    rw [signals_tag, k s b e1]; split <;> rfl
  cases op with
  | port l p =>
    cases h
    refine quiet rfl ?_
    by_cases g : x = l
    · subst g; rw [setL_self]; rfl
    · rw [setL_other _ g]
  | config l t ty =>
    refine on h (fun s b e => ?_)
    have : b = (config (w.s l t) ty).2 := by injection e with e; rw [e]
    rw [this]
    rcases (config_eq (w.s l t) ty).2.1 with k | k <;> rw [k]
    · rfl
    · exact (free_acts _).2.2.2
  | addLink l t tei sapi => exact on h (fun s b e => by cases e; rfl)
  | update l =>
    cases h
    obtain ⟨k1, k2⟩ := lineUpdate_sigs E w l
    exact quiet (k1 x) (k2 x)
  | event l t e =>
    simp only [step] at h
    split at h
    · split at h
      · cases h
      · obtain ⟨x', s, b, e1, rfl, rfl⟩ := onBoth_inv h
        have v := fdCb_ok e1
        by_cases g : x = l
        · subst g
          rw [signals_tag, if_pos rfl, setL_self]; exact ⟨v.coh, v.st⟩
        · rw [signals_tag, if_neg (fun e => g e.symm), setL_other _ g]; exact ⟨rfl, rfl⟩
    · cases h; exact ⟨rfl, rfl⟩
  | send l t m =>
    refine on h (fun s b e => ?_)
    rw [(send_eq e).1]; rfl
  | timeout l t =>
    simp only [step] at h
    split at h
    · split at h
      · cases h
      · exact on h (fun s b e => by cases e; rfl)
    · cases h; exact ⟨rfl, rfl⟩
  | lapdTx l t m n =>
    simp only [step] at h
    split at h
    · split at h
      · cases h
      · refine on h (fun s b e => ?_)
        obtain ⟨_, d, rfl⟩ := lapdTx_inv e; rfl
    · cases h; exact ⟨rfl, rfl⟩
  | sa l b n =>
    simp only [step] at h
    split at h
    · cases h; exact ⟨rfl, rfl⟩
    · cases h
      refine quiet ?_ rfl
      rw [signals_tag]; split <;> rfl
  | release l =>
    cases h
    refine quiet rfl ?_
    by_cases g : x = l
    · subst g; rw [setL_self]; rfl
    · rw [setL_other _ g]

theorem run_coh {E : Env} (x : Nat) : ∀ (ops : List Op) {w w' : W} {a : Acts}, run E w ops = .ok (w', a) →
    Coherent (w.line x).st none (signals x a) ∧ (signals x a).foldl after (w.line x).st = (w'.line x).st := by
  intro ops
  induction ops with
  | nil => intro w w' a h; cases h; exact ⟨rfl, rfl⟩
  | cons op ops ih =>
    intro w w' a h
    obtain ⟨w1, a1, a2, e1, e2, rfl⟩ := run_cons h
    obtain ⟨c1, s1⟩ := step_coh e1 x
    obtain ⟨c2, s2⟩ := ih e2
    rw [signals_append]
    exact ⟨coh_append c1 (by rw [s1]; exact c2), by rw [List.foldl_append, s1, s2]⟩

/-! ### Descriptors -/

structure RInv (w : W) : Prop where
  inv : WInv w
  gone : ∀ l, (w.line l).gone = false

/-- errors of `ioctl()` etc. are negative -/
def Errors (E : Env) : Prop := ∀ n r, E.card n = some r → r < 0

structure StepOk (w w' : W) (a : Acts) : Prop where
  inv : RInv w'
  ul : w'.ul = w.ul
  bal : ∀ x y, 1 ≤ y → Balanced (openFd (w.s x y).fd) (ofSlot x y a) (openFd (w'.s x y).fd)
  dch : ∀ x, Balanced (openFd (w.line x).dummy) (ofSlot x 0 a) (openFd (w'.line x).dummy)

theorem SInv.congr {ul : Bool} {s s' : Slot} (h : SInv ul s) (hc : s'.cur = s.cur) (hf : s'.fd = s.fd) (hr : s'.reg = s.reg) (hl : s'.lapd = s.lapd) : SInv ul s' :=
  ⟨by rw [hr, hf]; exact h.reg, by rw [hl, hf, hc]; exact h.lapd, by rw [hr, hc, hl]; exact h.ready, by rw [hc, hf, hr, hl]; exact h.none, by rw [hc, hf]; exact h.some⟩

/-- an operation on one time slot and its line -/
theorem set_ok {w : W} (h : RInv w) {l t : Nat} {s : Slot} {b : List Act} {x : Line} (hc : s.cur = (w.s l t).cur) (hf : s.fd = (w.s l t).fd) (hr : s.reg = (w.s l t).reg) (hl : s.lapd = (w.s l t).lapd)
    (hg : x.gone = (w.line l).gone) (hd : x.dummy = (w.line l).dummy) (hb : 1 ≤ t → Balanced (openFd (w.s l t).fd) b (openFd (w.s l t).fd)) (h0 : t = 0 → ∀ z, Balanced z b z) :
    StepOk w (setL (setS w l t s) l x) (tag l t b) := by
  have hs : ∀ a b, (setL (setS w l t s) l x).s a b = (setS w l t s).s a b := fun _ _ => rfl
  have hln : ∀ a, ((setL (setS w l t s) l x).line a).gone = (w.line a).gone ∧ ((setL (setS w l t s) l x).line a).dummy = (w.line a).dummy := by
    intro a
    by_cases g : a = l
    · subst g; rw [setL_self]; exact ⟨hg, hd⟩
    · rw [setL_other _ g]; exact ⟨rfl, rfl⟩
  have eq : ∀ a b, ((setS w l t s).s a b).cur = (w.s a b).cur ∧ ((setS w l t s).s a b).fd = (w.s a b).fd ∧ ((setS w l t s).s a b).reg = (w.s a b).reg ∧ ((setS w l t s).s a b).lapd = (w.s a b).lapd := by
    intro a b
    by_cases g : a = l ∧ b = t
    · obtain ⟨rfl, rfl⟩ := g; rw [setS_self]; exact ⟨hc, hf, hr, hl⟩
    · rw [setS_other _ g]; exact ⟨rfl, rfl, rfl, rfl⟩
  refine ⟨⟨⟨?_, ?_⟩, ?_⟩, rfl, ?_, ?_⟩
  · intro a b; rw [hs]; obtain ⟨e1, e2, e3, e4⟩ := eq a b; exact (h.inv.slot a b).congr e1 e2 e3 e4
  · intro a b g; rw [hs]; obtain ⟨e1, e2, e3, e4⟩ := eq a b
    obtain ⟨f1, f2, f3, f4⟩ := h.inv.out a b g
    exact ⟨e1.trans f1, e2.trans f2, e3.trans f3, e4.trans f4⟩
  · intro a; rw [(hln a).1]; exact h.gone a
  · intro a y hy
    rw [hs, (eq a y).2.1, ofSlot_tag]
    by_cases g : l = a ∧ t = y
    · obtain ⟨rfl, rfl⟩ := g; rw [if_pos ⟨rfl, rfl⟩]; exact hb hy
    · rw [if_neg g]; exact rfl
  · intro a
    rw [(hln a).2, ofSlot_tag]
    by_cases g : l = a ∧ t = 0
    · rw [if_pos g]; exact h0 g.2 _
    · rw [if_neg g]; exact rfl

theorem setL_same (w : W) (l t : Nat) (s : Slot) : setL (setS w l t s) l (w.line l) = setS w l t s := by
  unfold setL setS
  congr 1
  funext a
  show (if a = l then w.line l else w.line a) = w.line a
  by_cases g : a = l
  · rw [if_pos g, g]
  · rw [if_neg g]

theorem set_ok' {w : W} (h : RInv w) {l t : Nat} {s : Slot} {b : List Act} (hc : s.cur = (w.s l t).cur) (hf : s.fd = (w.s l t).fd) (hr : s.reg = (w.s l t).reg) (hl : s.lapd = (w.s l t).lapd)
    (hb : 1 ≤ t → Balanced (openFd (w.s l t).fd) b (openFd (w.s l t).fd)) (h0 : t = 0 → ∀ z, Balanced z b z) : StepOk w (setS w l t s) (tag l t b) := by
  have := set_ok h (x := w.line l) hc hf hr hl rfl rfl hb h0
  rw [setL_same] at this; exact this

theorem StepOk.refl {w : W} (h : RInv w) : StepOk w w [] := ⟨h, rfl, fun _ _ _ => rfl, fun _ => rfl⟩

theorem step_ok {E : Env} (hE : NotStdin E) (hR : Errors E) {w : W} (h : RInv w) {op : Op} (ho : (∀ l, op ≠ .release l) ∧ (∀ l b n, op ≠ .sa l b n)) {w' : W} {a : Acts}
    (hs : step E w op = .ok (w', a)) : StepOk w w' a := by
  have ng : ∀ l, ¬ (w.line l).gone = true := by intro l e; rw [h.gone l] at e; cases e
  cases op with
  | port l p =>
    cases hs
    have hln : ∀ a, ((setL w l { w.line l with port := p }).line a).gone = (w.line a).gone ∧ ((setL w l { w.line l with port := p }).line a).dummy = (w.line a).dummy := by
      intro a
      by_cases g : a = l
      · subst g; rw [setL_self]; exact ⟨rfl, rfl⟩
      · rw [setL_other _ g]; exact ⟨rfl, rfl⟩
    exact ⟨⟨⟨h.inv.slot, h.inv.out⟩, fun a => by rw [(hln a).1]; exact h.gone a⟩, rfl, fun _ _ _ => rfl, fun a => by rw [(hln a).2]; exact rfl⟩
  | config l t ty =>
    obtain ⟨s, b, e, rfl, rfl⟩ := onSlot_inv hs
    have e1 : s = (config (w.s l t) ty).1 := by injection e with e; rw [e]
    have e2 : b = (config (w.s l t) ty).2 := by injection e with e; rw [e]
    obtain ⟨c1, c2, _⟩ := config_eq (w.s l t) ty
    have hb : ∀ z, Balanced z b z := by
      intro z; rw [e2]; rcases c2 with k | k <;> rw [k]
      · exact rfl
      · exact (free_acts _).1 z
    rw [e1, c1]
    exact set_ok' h rfl rfl rfl rfl (fun _ => hb _) (fun _ => hb)
  | addLink l t tei sapi =>
    obtain ⟨s, b, e, rfl, rfl⟩ := onSlot_inv hs
    cases e
    rw [addLink_eq]
    exact set_ok' h rfl rfl rfl rfl (fun _ => rfl) (fun _ _ => rfl)
  | update l =>
    cases hs
    have U := lineUpdate_ok hE h.inv l hR
    exact ⟨⟨U.inv, fun x => by rw [U.line x]; exact h.gone x⟩, U.ul, U.bal, U.dch⟩
  | event l t e =>
    simp only [step] at hs
    split at hs
    · rename_i hr
      rw [if_neg (ng l)] at hs
      obtain ⟨x, s, b, e', rfl, rfl⟩ := onBoth_inv hs
      have v := fdCb_ok e'
      have hp := (h.inv.slot l t).reg hr
      refine set_ok h v.cur v.fd v.reg v.lapd v.gone v.dummy (fun _ => by rw [openFd_pos hp]; exact v.bal hp) ?_
      intro g; subst g
      rw [(h.inv.out l 0 zero_slots).2.2.1] at hr; cases hr
    · cases hs; exact StepOk.refl h
  | send l t m =>
    obtain ⟨s, b, e, rfl, rfl⟩ := onSlot_inv hs
    obtain ⟨rfl, ⟨wr, rfl⟩, _⟩ := send_eq e
    exact set_ok' h rfl rfl rfl rfl (fun _ => rfl) (fun _ _ => rfl)
  | timeout l t =>
    simp only [step] at hs
    split at hs
    · rw [if_neg (ng l)] at hs
      obtain ⟨s, b, e', rfl, rfl⟩ := onSlot_inv hs
      cases e'
      rw [timeout_eq]
      exact set_ok' h rfl rfl rfl rfl (fun _ => rfl) (fun _ _ => rfl)
    · cases hs; exact StepOk.refl h
  | lapdTx l t m n =>
    simp only [step] at hs
    split at hs
    · rename_i hl
      rw [if_neg (ng l)] at hs
      obtain ⟨s, b, e', rfl, rfl⟩ := onSlot_inv hs
      obtain ⟨rfl, d, rfl⟩ := lapdTx_inv e'
      have hp := ((h.inv.slot l t).lapd hl).1
      refine set_ok' h rfl rfl rfl rfl (fun _ => by rw [openFd_pos hp]; exact ⟨hp, rfl, rfl⟩) ?_
      intro g; subst g
      rw [(h.inv.out l 0 zero_slots).2.2.2] at hl; cases hl
    · cases hs; exact StepOk.refl h
  | sa l b n => exact absurd rfl (ho.2 l b n)
  | release l => exact absurd rfl (ho.1 l)

theorem init_rinv (ul : Nat → Bool) : RInv (init ul) :=
  ⟨⟨fun _ _ => ⟨(by intro e; cases e), (by intro e; cases e), (by intro e; cases e), fun _ => ⟨rfl, rfl, rfl⟩, fun e => absurd rfl e⟩, fun _ _ _ => ⟨rfl, rfl, rfl, rfl⟩⟩, fun _ => rfl⟩

theorem run_ok {E : Env} (hE : NotStdin E) (hR : Errors E) : ∀ (ops : List Op) {w w' : W} {a : Acts}, RInv w → Sane ops → run E w ops = .ok (w', a) → StepOk w w' a := by
  intro ops
  induction ops with
  | nil => intro w w' a h _ hs; cases hs; exact StepOk.refl h
  | cons op ops ih =>
    intro w w' a h ho hs
    obtain ⟨w1, a1, a2, e1, e2, rfl⟩ := run_cons hs
    have k1 := step_ok hE hR h (ho op (List.mem_cons_self ..)) e1
    have k2 := ih k1.inv (fun o m => ho o (List.mem_cons_of_mem _ m)) e2
    exact ⟨k2.inv, k2.ul.trans k1.ul, fun x y g => by rw [ofSlot_append]; exact bal_append (k1.bal x y g) (k2.bal x y g), fun x => by rw [ofSlot_append]; exact bal_append (k1.dch x) (k2.dch x)⟩

/-! ### As configured -/

/-- as configured for the use it was set up for -/
def Conf (ul : Bool) (s : Slot) : Prop := AsConfigured ul { s with ty := s.cur }

theorem Conf.congr {ul : Bool} {s s' : Slot} (h : Conf ul s) (hc : s'.cur = s.cur) (hf : s'.fd = s.fd) (hr : s'.reg = s.reg) (hl : s'.lapd = s.lapd) : Conf ul s' := by
  unfold Conf AsConfigured at h ⊢
  simp only [hc, hf, hr, hl]
  exact h

theorem conf_eq {ul : Bool} {s : Slot} (h : Conf ul s) (hc : s.cur = s.ty) : AsConfigured ul s := by
  unfold Conf at h; rw [hc] at h; exact h

theorem conf_of {ul : Bool} {s : Slot} (h : AsConfigured ul s) (hc : s.cur = s.ty) : Conf ul s := by
  unfold Conf; rw [hc]; exact h

theorem updTs_conf {E : Env} (hE : NotStdin E) (n l y : Nat) (hW : WorksAt E y) : ∀ (ts : List Nat) {w : W}, (∀ x y, SInv (w.ul x) (w.s x y)) →
    Conf (w.ul l) (w.s l y) → Conf (w.ul l) ((updTs E n l ts w).1.s l y) := by
  intro ts
  induction ts with
  | nil => intro w _ h; exact h
  | cons t ts ih =>
    intro w hi h
    have u := updSlot_ok (dev := (w.line l).port) (t := t) (hi l t) (hE.1 n t)
    have U := ups_slot hi u
    have k : Conf (w.ul l) ((setS w l t (updSlot (w.ul l) (w.line l).port t (w.s l t) (E.ans n t)).1).s l y) := by
      by_cases g : y = t
      · subst g
        rw [setS_self]
        have wk := updSlot_works (ul := w.ul l) (dev := (w.line l).port) (t := y) (s := w.s l y) (hW n)
        exact conf_of (u.ok wk (.inl h)) (by rw [u.cur wk, u.ty])
      · rw [setS_other _ (fun e => g e.2)]; exact h
    simp only [updTs]
    split
    · exact k
    · exact ih (w := setS w l t (updSlot (w.ul l) (w.line l).port t (w.s l t) (E.ans n t)).1) (fun x y => U.slot x y) k

theorem lineUpdate_conf {E : Env} (hE : NotStdin E) {w : W} (h : WInv w) (l y : Nat) (hW : WorksAt E y) (hc : Conf (w.ul l) (w.s l y)) : Conf (w.ul l) ((lineUpdate E w l).1.s l y) := by
  unfold lineUpdate
  simp only []
  split
  · exact hc
  · split
    · exact hc
    · exact updTs_conf hE w.upd l y hW slots (w := setL { w with upd := w.upd + 1 } l _) h.slot hc

theorem set_conf {w : W} {ul : Bool} {l t x y : Nat} {s : Slot} {z : Line} (h : Conf ul (w.s x y)) (hc : s.cur = (w.s l t).cur) (hf : s.fd = (w.s l t).fd) (hr : s.reg = (w.s l t).reg) (hl : s.lapd = (w.s l t).lapd) :
    Conf ul ((setL (setS w l t s) l z).s x y) := by
  show Conf ul ((setS w l t s).s x y)
  by_cases g : x = l ∧ y = t
  · obtain ⟨rfl, rfl⟩ := g; rw [setS_self]; exact h.congr hc hf hr hl
  · rw [setS_other _ g]; exact h

theorem step_conf {E : Env} (hE : NotStdin E) (hR : Errors E) {w : W} (h : RInv w) {op : Op} {w' : W} {a : Acts} {x y : Nat} (hW : WorksAt E y) (hy : 1 ≤ y) (hs : step E w op = .ok (w', a)) (hc : Conf (w.ul x) (w.s x y)) :
    Conf (w.ul x) (w'.s x y) := by
  cases op with
  | port l p => cases hs; exact hc
  | config l t ty =>
    obtain ⟨s, b, e, rfl, rfl⟩ := onSlot_inv hs
    have e1 : s = (config (w.s l t) ty).1 := by injection e with e; rw [e]
    obtain ⟨c1, _, _⟩ := config_eq (w.s l t) ty
    rw [e1, c1]
    exact set_conf (z := w.line l) hc rfl rfl rfl rfl
  | addLink l t tei sapi =>
    obtain ⟨s, b, e, rfl, rfl⟩ := onSlot_inv hs
    cases e
    rw [addLink_eq]
    exact set_conf (z := w.line l) hc rfl rfl rfl rfl
  | update l =>
    cases hs
    by_cases g : x = l
    · subst g; exact lineUpdate_conf hE h.inv x y hW hc
    · rw [(lineUpdate_ok hE h.inv l hR).other x y (fun e => g e.1)]; exact hc
  | event l t e =>
    simp only [step] at hs
    split at hs
    · split at hs
      · cases hs
      · obtain ⟨x', s, b, e', rfl, rfl⟩ := onBoth_inv hs
        have v := fdCb_ok e'
        exact set_conf hc v.cur v.fd v.reg v.lapd
    · cases hs; exact hc
  | send l t m =>
    obtain ⟨s, b, e, rfl, rfl⟩ := onSlot_inv hs
    obtain ⟨rfl, ⟨wr, rfl⟩, _⟩ := send_eq e
    exact set_conf (z := w.line l) hc rfl rfl rfl rfl
  | timeout l t =>
    simp only [step] at hs
    split at hs
    · split at hs
      · cases hs
      · obtain ⟨s, b, e', rfl, rfl⟩ := onSlot_inv hs
        cases e'
        rw [timeout_eq]
        exact set_conf (z := w.line l) hc rfl rfl rfl rfl
    · cases hs; exact hc
  | lapdTx l t m n =>
    simp only [step] at hs
    split at hs
    · split at hs
      · cases hs
      · obtain ⟨s, b, e', rfl, rfl⟩ := onSlot_inv hs
        obtain ⟨rfl, d, rfl⟩ := lapdTx_inv e'
        exact set_conf (z := w.line l) hc rfl rfl rfl rfl
    · cases hs; exact hc
  | sa l b n => simp only [step] at hs; split at hs <;> cases hs <;> exact hc
  | release l => cases hs; exact hc

theorem run_conf {E : Env} (hE : NotStdin E) (hR : Errors E) {x y : Nat} (hW : WorksAt E y) (hy : 1 ≤ y) : ∀ (ops : List Op) {w w' : W} {a : Acts}, RInv w → Sane ops →
    run E w ops = .ok (w', a) → Conf (w.ul x) (w.s x y) → Conf (w.ul x) (w'.s x y) := by
  intro ops
  induction ops with
  | nil => intro w w' a _ _ hs hc; cases hs; exact hc
  | cons op ops ih =>
    intro w w' a h ho hs hc
    obtain ⟨w1, a1, a2, e1, e2, rfl⟩ := run_cons hs
    have k1 := step_ok hE hR h (ho op (List.mem_cons_self ..)) e1
    have := ih k1.inv (fun o m => ho o (List.mem_cons_of_mem _ m)) e2 (by rw [k1.ul]; exact step_conf hE hR h hW hy e1 hc)
    rw [k1.ul] at this; exact this

/-! ### Queues -/

/-- what an operation does to the queue of a time slot -/
structure Que (l t : Nat) (op : List Op) (s s' : Slot) (a : List Act) : Prop where
  ty : s'.ty = s.ty
  cur : s'.cur = s'.ty
  fifo : s.q.map (·.d) ++ sent l t op = wentOut s.ty a ++ s'.q.map (·.d)
  acc : s.ty = .raw ∨ s.ty = .hdlc → accepted a + (if s.unconf then 1 else 0) ≤ cnfs l t op + (if s'.unconf then 1 else 0)
  wakeS : s.ty = .sign → (s.q ≠ [] → s.wr = true ∨ s.timer = true) → s'.q ≠ [] → s'.wr = true ∨ s'.timer = true
  wakeB : s.ty = .raw ∨ s.ty = .hdlc → AllAccepted a → (s.q ≠ [] → s.wr = true ∨ s.unconf = true) → s'.q ≠ [] → s'.wr = true ∨ s'.unconf = true

theorem Que.refl {l t : Nat} {op : List Op} {s : Slot} (hc : s.cur = s.ty) (h : sent l t op = []) : Que l t op s s [] :=
  ⟨rfl, hc, by rw [h]; simp [wentOut], fun _ => by simp [accepted], fun _ h => h, fun _ _ h => h⟩

theorem cnfs_cons (l t : Nat) (op : Op) (ops : List Op) : cnfs l t (op :: ops) = cnfs l t [op] + cnfs l t ops := by
  cases op <;> simp only [cnfs, Nat.zero_add]
  split <;> omega

theorem sent_cons (l t : Nat) (op : Op) (ops : List Op) : sent l t (op :: ops) = sent l t [op] ++ sent l t ops := by
  cases op <;> simp only [sent, List.nil_append]
  split <;> rfl

theorem step_que {E : Env} (hE : NotStdin E) (hR : Errors E) {w : W} (h : RInv w) {l t : Nat} (h1 : 1 ≤ t) (ht : (w.s l t).ty = .sign ∨ (w.s l t).ty = .raw ∨ (w.s l t).ty = .hdlc)
    (hc : (w.s l t).cur = (w.s l t).ty) {op : Op} (ho : (∀ l, op ≠ .release l) ∧ (∀ l b n, op ≠ .sa l b n)) (hu : ∀ ty, op ≠ .config l t ty)
    {w' : W} {a : Acts} (hs : step E w op = .ok (w', a)) : Que l t [op] (w.s l t) (w'.s l t) (ofSlot l t a) := by
  have ng : ∀ l, ¬ (w.line l).gone = true := by intro l e; rw [h.gone l] at e; cases e
  have other : ∀ {l' t' : Nat} {s : Slot} {b : List Act} {x : Line}, ¬ (l' = l ∧ t' = t) → sent l t [op] = [] →
      Que l t [op] (w.s l t) ((setL (setS w l' t' s) l' x).s l t) (ofSlot l t (tag l' t' b)) := by
    intro l' t' s b x g k
    rw [ofSlot_tag, if_neg g]
    show Que l t [op] (w.s l t) ((setS w l' t' s).s l t) []
    rw [setS_other _ (fun e => g ⟨e.1.symm, e.2.symm⟩)]
    exact Que.refl hc k
  cases op with
  | port l' p => cases hs; exact Que.refl hc rfl
  | config l' t' ty =>
    obtain ⟨s, b, e, rfl, rfl⟩ := onSlot_inv hs
    have g : ¬ (l' = l ∧ t' = t) := by rintro ⟨rfl, rfl⟩; exact hu ty rfl
    have := other (s := s) (b := b) (x := w.line l') g rfl
    exact this
  | addLink l' t' tei sapi =>
    obtain ⟨s, b, e, rfl, rfl⟩ := onSlot_inv hs
    by_cases g : l' = l ∧ t' = t
    · obtain ⟨rfl, rfl⟩ := g
      cases e
      rw [ofSlot_tag, if_pos ⟨rfl, rfl⟩, setS_self, addLink_eq]
      exact ⟨rfl, hc, by simp [sent, wentOut], fun _ => by simp [accepted], fun _ h => h, fun _ _ h => h⟩
    · exact other (s := s) (b := b) (x := w.line l') g rfl
  | update l' =>
    cases hs
    obtain ⟨k1, k2⟩ := (lineUpdate_ok hE h.inv l' hR).same l t h1 hc
    rw [k1, k2]; exact Que.refl hc rfl
  | event l' t' e =>
    simp only [step] at hs
    split at hs
    · rename_i hr
      rw [if_neg (ng l')] at hs
      obtain ⟨x, s, b, e', rfl, rfl⟩ := onBoth_inv hs
      by_cases g : l' = l ∧ t' = t
      · obtain ⟨rfl, rfl⟩ := g
        have v := fdCb_ok e'
        rw [ofSlot_tag, if_pos ⟨rfl, rfl⟩]
        show Que l' t' _ (w.s l' t') ((setS w l' t' s).s l' t') b
        rw [setS_self]
        refine ⟨v.ty, by rw [v.cur, v.ty]; exact hc, by rw [show sent l' t' [Op.event l' t' e] = [] from rfl, List.append_nil]; exact v.fifo ht, ?_, v.wakeS, v.wakeB⟩
        intro k
        have k := v.acc k
        have e2 : cnfs l' t' [Op.event l' t' e] = if isCnf e then 1 else 0 := by
          simp only [cnfs, true_and]
        rw [e2]; exact k
      · exact other g rfl
    · cases hs; exact Que.refl hc rfl
  | send l' t' m =>
    obtain ⟨s, b, e, rfl, rfl⟩ := onSlot_inv hs
    obtain ⟨rfl, ⟨wr, e2⟩, _, e3, e4⟩ := send_eq e
    by_cases g : l' = l ∧ t' = t
    · obtain ⟨rfl, rfl⟩ := g
      rw [ofSlot_tag, if_pos ⟨rfl, rfl⟩, setS_self]
      refine ⟨by rw [e2], by rw [e2]; exact hc, ?_, fun _ => ?_, fun k _ _ => e3 k, fun k _ _ _ => .inl (e4 k)⟩
      · rw [e2]; simp [sent, wentOut]
      · rw [e2]; simp [accepted]
    · rw [ofSlot_tag, if_neg g, setS_other _ (fun e => g ⟨e.1.symm, e.2.symm⟩)]
      exact Que.refl hc (by simp only [sent, if_neg g])
  | timeout l' t' =>
    simp only [step] at hs
    split at hs
    · rw [if_neg (ng l')] at hs
      obtain ⟨s, b, e', rfl, rfl⟩ := onSlot_inv hs
      cases e'
      by_cases g : l' = l ∧ t' = t
      · obtain ⟨rfl, rfl⟩ := g
        rw [ofSlot_tag, if_pos ⟨rfl, rfl⟩, setS_self]
        have hw := timeout_wr ht
        rw [timeout_eq, hw]
        exact ⟨rfl, hc, by simp [sent, wentOut], fun _ => by simp [accepted], fun _ _ _ => .inl rfl, fun _ _ _ _ => .inl rfl⟩
      · exact other (s := timeout (w.s l' t')) (b := []) (x := w.line l') g rfl
    · cases hs; exact Que.refl hc rfl
  | lapdTx l' t' m n =>
    simp only [step] at hs
    split at hs
    · rename_i hl
      rw [if_neg (ng l')] at hs
      obtain ⟨s, b, e', rfl, rfl⟩ := onSlot_inv hs
      obtain ⟨rfl, d, rfl⟩ := lapdTx_inv e'
      by_cases g : l' = l ∧ t' = t
      · obtain ⟨rfl, rfl⟩ := g
        rw [ofSlot_tag, if_pos ⟨rfl, rfl⟩, setS_self]
        have hty : (w.s l' t').ty = .sign := by rw [← hc]; exact ((h.inv.slot l' t').lapd hl).2.1
        have n1 : ¬ ((w.s l' t').ty = .raw ∨ (w.s l' t').ty = .hdlc) := by rw [hty]; intro g; rcases g with g | g <;> cases g
        refine ⟨rfl, hc, ?_, fun k => absurd k n1, fun _ h => h, fun k => absurd k n1⟩
        rw [hty]; simp [sent, wentOut]
      · exact other (s := w.s l' t') (b := [.send (w.s l' t').fd d n]) (x := w.line l') g rfl
    · cases hs; exact Que.refl hc rfl
  | sa l b n => exact absurd rfl (ho.2 l b n)
  | release l => exact absurd rfl (ho.1 l)

theorem run_que {E : Env} (hE : NotStdin E) (hR : Errors E) (l t : Nat) (h1 : 1 ≤ t) : ∀ (ops : List Op) {w w' : W} {a : Acts}, RInv w → Sane ops → Unchanged l t ops →
    (w.s l t).ty = .sign ∨ (w.s l t).ty = .raw ∨ (w.s l t).ty = .hdlc → (w.s l t).cur = (w.s l t).ty → run E w ops = .ok (w', a) → Que l t ops (w.s l t) (w'.s l t) (ofSlot l t a) := by
  intro ops
  induction ops with
  | nil => intro w w' a _ _ _ _ hc hs; cases hs; exact Que.refl hc rfl
  | cons op ops ih =>
    intro w w' a h ho hu ht hc hs
    obtain ⟨w1, a1, a2, e1, e2, rfl⟩ := run_cons hs
    have k1 := step_ok hE hR h (ho op (List.mem_cons_self ..)) e1
    have q1 := step_que hE hR h h1 ht hc (ho op (List.mem_cons_self ..)) (hu op (List.mem_cons_self ..)) e1
    have q2 := ih k1.inv (fun o m => ho o (List.mem_cons_of_mem _ m)) (fun o m => hu o (List.mem_cons_of_mem _ m)) (by rw [q1.ty]; exact ht) q1.cur e2
    refine ⟨q2.ty.trans q1.ty, q2.cur, ?_, ?_, ?_, ?_⟩
    · rw [sent_cons, ← List.append_assoc, q1.fifo, List.append_assoc, q2.fifo, ofSlot_append, went_append, q1.ty, List.append_assoc]
    · intro k
      have r1 := q1.acc k
      have r2 := q2.acc (by rw [q1.ty]; exact k)
      rw [ofSlot_append, acc_append, cnfs_cons]; omega
    · intro k p; exact q2.wakeS (by rw [q1.ty]; exact k) (q1.wakeS k p)
    · intro k aa p
      rw [ofSlot_append] at aa
      exact q2.wakeB (by rw [q1.ty]; exact k) (allAcc_append aa).2 (q1.wakeB k (allAcc_append aa).1 p)

/-! ### Proper use -/

structure SafeInv (dirty : Nat → Bool) (ty : Nat → Nat → Ty) (w : W) : Prop where
  types : ∀ l t, (w.s l t).ty = ty l t
  room : ∀ l t m, m ∈ (w.s l t).q → 8 ≤ m.room
  clean : ∀ l t, dirty l = false → t ∈ slots → (w.s l t).cur = (w.s l t).ty

theorem set_safe {dirty : Nat → Bool} {ty : Nat → Nat → Ty} {w : W} (h : SafeInv dirty ty w) {l t : Nat} {s : Slot} {x : Line} (ht : s.ty = (w.s l t).ty) (hc : s.cur = (w.s l t).cur)
    (hq : ∀ m ∈ s.q, 8 ≤ m.room) : SafeInv dirty ty (setL (setS w l t s) l x) := by
  have e : ∀ a b, (setL (setS w l t s) l x).s a b = (setS w l t s).s a b := fun _ _ => rfl
  refine ⟨?_, ?_, ?_⟩ <;> intro a b <;> rw [e] <;> (by_cases g : a = l ∧ b = t)
  · obtain ⟨rfl, rfl⟩ := g; rw [setS_self, ht]; exact h.types a b
  · rw [setS_other _ g]; exact h.types a b
  · obtain ⟨rfl, rfl⟩ := g; rw [setS_self]; exact hq
  · rw [setS_other _ g]; exact h.room a b
  · obtain ⟨rfl, rfl⟩ := g; rw [setS_self, ht, hc]; exact h.clean a b
  · rw [setS_other _ g]; exact h.clean a b

theorem step_safe {E : Env} (hE : NotStdin E) (hW : Works E) {w : W} {dirty : Nat → Bool} {ty : Nat → Nat → Ty} (h : RInv w) (hs : SafeInv dirty ty w) {op : Op} {ops : List Op}
    (hpr : Proper dirty ty (op :: ops)) : ∃ w' a, step E w op = .ok (w', a) ∧ RInv w' ∧ ∃ dirty' ty', SafeInv dirty' ty' w' ∧ Proper dirty' ty' ops := by
  have hR : Errors E := by intro n r e; rw [(hW.1 n).1] at e; cases e
  have ng : ∀ l, ¬ (w.line l).gone = true := by intro l e; rw [h.gone l] at e; cases e
  have fin : ∀ {w' : W} {a : Acts}, step E w op = .ok (w', a) → (∀ l, op ≠ .release l) → (∀ l b n, op ≠ .sa l b n) → RInv w' := fun e1 e2 e3 => (step_ok hE hR h ⟨e2, e3⟩ e1).inv
  cases op with
  | port l p =>
    refine ⟨_, _, rfl, fin rfl (by intro l e; cases e) (by intro l b n e; cases e), dirty, ty, ⟨hs.types, hs.room, hs.clean⟩, hpr⟩
  | config l t tt =>
    have e : step E w (.config l t tt) = .ok (setS w l t (config (w.s l t) tt).1, tag l t (config (w.s l t) tt).2) := rfl
    refine ⟨_, _, e, fin e (by intro l e; cases e) (by intro l b n e; cases e), _, _, ?_, hpr⟩
    obtain ⟨c1, _, c3⟩ := config_eq (w.s l t) tt
    refine ⟨?_, ?_, ?_⟩ <;> intro x y
    · by_cases g : x = l ∧ y = t
      · obtain ⟨rfl, rfl⟩ := g; rw [setS_self, if_pos ⟨rfl, rfl⟩, c1]
      · rw [setS_other _ g, if_neg g]; exact hs.types x y
    · by_cases g : x = l ∧ y = t
      · obtain ⟨rfl, rfl⟩ := g; rw [setS_self]
        intro m k
        rcases c3 with c3 | c3 <;> rw [c3] at k
        · exact hs.room x y m k
        · cases k
      · rw [setS_other _ g]; exact hs.room x y
    · intro d
      by_cases g : x = l
      · rw [if_pos g] at d; cases d
      · rw [if_neg g] at d
        rw [setS_other _ (fun e => g e.1)]; exact hs.clean x y d
  | addLink l t tei sapi =>
    have e : step E w (.addLink l t tei sapi) = .ok (setS w l t (addLink (w.s l t) tei sapi), tag l t []) := rfl
    refine ⟨_, _, e, fin e (by intro l e; cases e) (by intro l b n e; cases e), dirty, ty, ?_, hpr⟩
    rw [← setL_same, addLink_eq]
    exact set_safe hs rfl rfl (hs.room l t)
  | update l =>
    have e : step E w (.update l) = .ok ((lineUpdate E w l).1, (lineUpdate E w l).2.1) := rfl
    refine ⟨_, _, e, fin e (by intro l e; cases e) (by intro l b n e; cases e), _, _, ?_, hpr⟩
    have U := lineUpdate_ok hE h.inv l hR
    have wk := lineUpdate_works hE hW w l
    refine ⟨fun x y => (U.ty x y).trans (hs.types x y), fun x y => by rw [U.q]; exact hs.room x y, ?_⟩
    intro x y d m
    by_cases g : x = l
    · subst g; exact U.cur wk y m
    · rw [if_neg g] at d
      rw [U.other x y (fun e => g e.1)]; exact hs.clean x y d m
  | event l t e =>
    obtain ⟨hd, hdat, hpr⟩ := hpr
    by_cases hr : (w.s l t).reg = true
    · have hm : t ∈ slots := by
        refine Decidable.byContradiction fun hn => ?_
        rw [(h.inv.out l t hn).2.2.1] at hr; cases hr
      have hc := hs.clean l t hd hm
      obtain ⟨x', s', b, e1⟩ := fdCb_total (ul := w.ul l) (w.line l) (s := w.s l t) { e with wr := e.wr && (w.s l t).wr } hdat
        (fun hu hty => (h.inv.slot l t).ready hr (hc.trans hty) hu) (hs.room l t)
      have e' : step E w (.event l t e) = .ok (setL (setS w l t s') l x', tag l t b) := by
        simp only [step]; rw [if_pos hr, if_neg (ng l), e1]; rfl
      have v := fdCb_ok e1
      exact ⟨_, _, e', fin e' (by intro l e; cases e) (by intro l b n e; cases e), dirty, ty, set_safe hs v.ty v.cur (fun m k => hs.room l t m (v.mem m k)), hpr⟩
    · have e' : step E w (.event l t e) = .ok (w, []) := by simp only [step]; rw [if_neg hr]
      exact ⟨_, _, e', h, dirty, ty, hs, hpr⟩
  | send l t m =>
    obtain ⟨hd, ht, hroom, hpr⟩ := hpr
    rw [← hs.types l t] at ht
    have : ∃ s' b, send (w.s l t) m = .ok (s', b) := by
      unfold send
      rcases ht with e | e | e <;> rw [e] <;> exact ⟨_, _, rfl⟩
    obtain ⟨s', b, e1⟩ := this
    have e' : step E w (.send l t m) = .ok (setS w l t s', tag l t b) := by simp only [step, e1]; rfl
    obtain ⟨_, ⟨wr, q1⟩, _⟩ := send_eq e1
    refine ⟨_, _, e', fin e' (by intro l e; cases e) (by intro l b n e; cases e), dirty, ty, ?_, hpr⟩
    rw [← setL_same, q1]
    refine set_safe hs rfl rfl ?_
    intro k mk
    rcases List.mem_append.1 mk with mk | mk
    · exact hs.room l t k mk
    · rw [List.mem_singleton.1 mk]; exact hroom
  | timeout l t =>
    obtain ⟨hd, hpr⟩ := hpr
    by_cases hr : (w.s l t).timer = true
    · have e' : step E w (.timeout l t) = .ok (setS w l t (timeout (w.s l t)), tag l t []) := by
        simp only [step]; rw [if_pos hr, if_neg (ng l)]; rfl
      refine ⟨_, _, e', fin e' (by intro l e; cases e) (by intro l b n e; cases e), dirty, ty, ?_, hpr⟩
      rw [← setL_same, timeout_eq]
      exact set_safe hs rfl rfl (hs.room l t)
    · have e' : step E w (.timeout l t) = .ok (w, []) := by simp only [step]; rw [if_neg hr]
      exact ⟨_, _, e', h, dirty, ty, hs, hpr⟩
  | lapdTx l t m n =>
    obtain ⟨hd, hroom, hpr⟩ := hpr
    by_cases hr : (w.s l t).lapd = true
    · have e0 : lapdTx (w.s l t) m n = .ok (w.s l t, [.send (w.s l t).fd (head PH_DATA_REQ 0 ++ m.d) n]) := by
        unfold lapdTx push; rw [if_neg (by simp only [HLEN]; omega)]; rfl
      have e' : step E w (.lapdTx l t m n) = .ok (setS w l t (w.s l t), tag l t [.send (w.s l t).fd (head PH_DATA_REQ 0 ++ m.d) n]) := by
        simp only [step]; rw [if_pos hr, if_neg (ng l), e0]; rfl
      refine ⟨_, _, e', fin e' (by intro l e; cases e) (by intro l b n e; cases e), dirty, ty, ?_, hpr⟩
      rw [← setL_same]
      exact set_safe hs rfl rfl (hs.room l t)
    · have e' : step E w (.lapdTx l t m n) = .ok (w, []) := by simp only [step]; rw [if_neg hr]
      exact ⟨_, _, e', h, dirty, ty, hs, hpr⟩
  | sa l b n =>
    by_cases g : w.ul l = true
    · exact ⟨w, [], by simp only [step]; rw [if_pos g], h, dirty, ty, hs, hpr⟩
    · exact ⟨w, _, by simp only [step]; rw [if_neg g], h, dirty, ty, hs, hpr⟩
  | release l => exact absurd hpr id

theorem run_safe {E : Env} (hE : NotStdin E) (hW : Works E) : ∀ (ops : List Op) {w : W} {dirty : Nat → Bool} {ty : Nat → Nat → Ty}, RInv w → SafeInv dirty ty w → Proper dirty ty ops →
    ∃ w' a, run E w ops = .ok (w', a) := by
  intro ops
  induction ops with
  | nil => intro w _ _ _ _ _; exact ⟨w, [], rfl⟩
  | cons op ops ih =>
    intro w dirty ty h hs hpr
    obtain ⟨w1, a1, e1, h1, d1, t1, s1, q1⟩ := step_safe hE hW h hs hpr
    obtain ⟨w2, a2, e2⟩ := ih h1 s1 q1
    exact ⟨w2, a1 ++ a2, by simp only [run, bind, Except.bind, e1, e2]⟩

/-! ### More about line updates -/

theorem updTs_slot {E : Env} (hE : NotStdin E) (n l t : Nat) : ∀ (ts : List Nat) (w : W), ts.Nodup → t ∈ ts → (updTs E n l ts w).2.2 = 0 → (∀ x y, SInv (w.ul x) (w.s x y)) →
    ofSlot l t (updTs E n l ts w).2.1 = (updSlot (w.ul l) (w.line l).port t (w.s l t) (E.ans n t)).2.1 ∧
      (updTs E n l ts w).1.s l t = (updSlot (w.ul l) (w.line l).port t (w.s l t) (E.ans n t)).1 ∧ (updSlot (w.ul l) (w.line l).port t (w.s l t) (E.ans n t)).2.2 = none := by
  intro ts
  have out : ∀ (ts : List Nat) (w : W), t ∉ ts → ofSlot l t (updTs E n l ts w).2.1 = [] ∧ (updTs E n l ts w).1.s l t = w.s l t := by
    intro ts
    induction ts with
    | nil => intro w _; exact ⟨rfl, rfl⟩
    | cons y ts ih =>
      intro w hn
      have hy : ¬ t = y := fun e => hn (by rw [e]; exact List.mem_cons_self ..)
      have hts : t ∉ ts := fun e => hn (List.mem_cons_of_mem _ e)
      simp only [updTs]
      split
      · exact ⟨by rw [ofSlot_tag, if_neg (fun e => hy e.2.symm)], by rw [setS_other _ (fun e => hy e.2)]⟩
      · obtain ⟨k1, k2⟩ := ih (setS w l y (updSlot (w.ul l) (w.line l).port y (w.s l y) (E.ans n y)).1) hts
        exact ⟨by rw [ofSlot_append, ofSlot_tag, if_neg (fun e => hy e.2.symm), k1]; rfl, by rw [k2, setS_other _ (fun e => hy e.2)]⟩
  induction ts with
  | nil => intro w _ m; cases m
  | cons y ts ih =>
    intro w nd m hr hi
    have nd1 : y ∉ ts := (List.nodup_cons.1 nd).1
    have nd2 := (List.nodup_cons.1 nd).2
    have u := updSlot_ok (dev := (w.line l).port) (t := y) (hi l y) (hE.1 n y)
    have U := ups_slot hi u
    simp only [updTs] at hr ⊢
    split at hr
    · rename_i r e
      have := u.rc r e
      simp only at hr; omega
    · rename_i e
      simp only [e]
      by_cases g : t = y
      · subst g
        obtain ⟨k1, k2⟩ := out ts (setS w l t (updSlot (w.ul l) (w.line l).port t (w.s l t) (E.ans n t)).1) nd1
        exact ⟨by rw [ofSlot_append, ofSlot_tag, if_pos ⟨rfl, rfl⟩, k1, List.append_nil], by rw [k2, setS_self], e⟩
      · have hm : t ∈ ts := by
          rcases List.mem_cons.1 m with h | h
          · exact absurd h g
          · exact h
        have hs : (setS w l y (updSlot (w.ul l) (w.line l).port y (w.s l y) (E.ans n y)).1).s l t = w.s l t := by rw [setS_other _ (fun e => g e.2)]
        have K := ih (setS w l y (updSlot (w.ul l) (w.line l).port y (w.s l y) (E.ans n y)).1) nd2 hm hr (fun x y => U.slot x y)
        rw [hs] at K
        refine ⟨?_, K.2.1, K.2.2⟩
        rw [ofSlot_append, ofSlot_tag, if_neg (fun e => g e.2.symm), K.1]; rfl

theorem finish_opens {ul : Bool} {s : Slot} {a : Ans} (h : (finish ul s a).2.2 = none) : (¬ (s.ty = .sign ∧ ul = false)) → (finish ul s a).2.1 = [.activate s.fd] := by
  intro hn
  unfold finish
  rw [if_neg hn]
  split <;> rfl

/-- a time slot whose use has changed gets a socket -/
theorem updSlot_opens {ul : Bool} {dev t : Nat} {s : Slot} {a : Ans} (h : (updSlot ul dev t s a).2.2 = none) (hc : s.cur ≠ s.ty) (hn : s.ty ≠ .none) :
    ∃ z, (updSlot ul dev t s a).2.1 = (if 0 < s.fd then [.closed s.fd] else []) ++ [.socket (proto ul t s.ty) a.fd, .bind a.fd dev (channel ul t s.ty)] ++ z ∧
      z = (if s.ty = .sign ∧ ul = false then [] else [.activate a.fd]) ∧ (updSlot ul dev t s a).1.fd = a.fd ∧ (updSlot ul dev t s a).1.reg = true ∧ (updSlot ul dev t s a).1.unconf = false := by
  unfold updSlot at h ⊢
  rw [if_neg hc, if_neg hn] at h ⊢
  simp only [setUp] at h ⊢
  split at h
  · cases h
  · rename_i h1
    rw [if_neg h1]
    split at h
    · cases h
    · rename_i h2
      rw [if_neg h2]
      simp only at h ⊢
      unfold finish at h ⊢
      show ∃ z, _
      by_cases hs : s.ty = .sign ∧ ul = false
      · have e : (tearDown s).1.ty = .sign ∧ ul = false := hs
        simp only [if_pos e] at h ⊢
        split at h
        · cases h
        · rename_i h3
          rw [if_neg h3]
          split at h
          · rename_i h4
            rw [if_pos h4, if_pos hs]; exact ⟨[], by simp [tearDown], rfl, rfl, rfl, rfl⟩
          · cases h
      · have e : ¬ ((tearDown s).1.ty = .sign ∧ ul = false) := hs
        simp only [if_neg e] at h ⊢
        split at h
        · rename_i h4
          rw [if_pos h4, if_neg hs]; exact ⟨_, by simp [tearDown], rfl, rfl, rfl, rfl⟩
        · cases h

theorem lineUpdate_slot {E : Env} (hE : NotStdin E) (hR : Errors E) {w : W} (h : WInv w) (l t : Nat) (ht : t ∈ slots) (hr : (lineUpdate E w l).2.2 = 0) :
    ofSlot l t (lineUpdate E w l).2.1 = (updSlot (w.ul l) (w.line l).port t (w.s l t) (E.ans w.upd t)).2.1 ∧
      (lineUpdate E w l).1.s l t = (updSlot (w.ul l) (w.line l).port t (w.s l t) (E.ans w.upd t)).1 ∧ (updSlot (w.ul l) (w.line l).port t (w.s l t) (E.ans w.upd t)).2.2 = none := by
  have h1 := (mem_slots.1 ht).1
  unfold lineUpdate at hr ⊢
  simp only [] at hr ⊢
  cases hca : E.card w.upd with
  | some rc =>
    have := hR _ _ hca
    rw [hca] at hr
    simp only at hr; omega
  | none =>
    rw [hca] at hr
    simp only [] at hr ⊢
    generalize hsg : slots.any (fun t => decide ((w.s l t).ty = .sign)) = sg at hr ⊢
    obtain ⟨d1, d2, d3, d4, d5, d6, _, d8⟩ := dummyCh_ok hE w.upd (w.ul l) sg (w.line l)
    generalize hD : dummyCh E w.upd (w.ul l) sg (w.line l) = D at *
    cases hx : D.2.2 with
    | some rc =>
      have := d4 _ hx
      rw [hx] at hr
      simp only at hr; omega
    | none =>
      rw [hx] at hr
      simp only [] at hr ⊢
      have K := updTs_slot hE w.upd l t slots (setL { w with upd := w.upd + 1 } l D.1) slots_nodup ht hr h.slot
      have e : ((setL { w with upd := w.upd + 1 } l D.1).line l).port = (w.line l).port := by rw [setL_self, d2]
      rw [e] at K
      exact ⟨by rw [ofSlot_append, ofSlot_tag, if_neg (by omega)]; exact K.1, K.2.1, K.2.2⟩

/-- the use a time slot was set up for stays the configured one -/
theorem step_cur {E : Env} (hE : NotStdin E) (hR : Errors E) {w : W} (h : RInv w) {l t : Nat} (h1 : 1 ≤ t) (hc : (w.s l t).cur = (w.s l t).ty) {op : Op} (hu : ∀ ty, op ≠ .config l t ty)
    {w' : W} {a : Acts} (hs : step E w op = .ok (w', a)) : (w'.s l t).cur = (w'.s l t).ty ∧ (w'.s l t).ty = (w.s l t).ty ∧ (w'.s l t).reg = (w.s l t).reg ∧ (w'.s l t).fd = (w.s l t).fd := by
  have key : ∀ {l' t' : Nat} {s : Slot} {x : Line}, (l' = l ∧ t' = t → s.cur = (w.s l' t').cur ∧ s.ty = (w.s l' t').ty ∧ s.reg = (w.s l' t').reg ∧ s.fd = (w.s l' t').fd) →
      ((setL (setS w l' t' s) l' x).s l t).cur = ((setL (setS w l' t' s) l' x).s l t).ty ∧ ((setL (setS w l' t' s) l' x).s l t).ty = (w.s l t).ty ∧
        ((setL (setS w l' t' s) l' x).s l t).reg = (w.s l t).reg ∧ ((setL (setS w l' t' s) l' x).s l t).fd = (w.s l t).fd := by
    intro l' t' s x k
    show ((setS w l' t' s).s l t).cur = ((setS w l' t' s).s l t).ty ∧ ((setS w l' t' s).s l t).ty = (w.s l t).ty ∧ ((setS w l' t' s).s l t).reg = (w.s l t).reg ∧ ((setS w l' t' s).s l t).fd = (w.s l t).fd
    by_cases g : l' = l ∧ t' = t
    · obtain ⟨rfl, rfl⟩ := g
      rw [setS_self]
      obtain ⟨k1, k2, k3, k4⟩ := k ⟨rfl, rfl⟩
      exact ⟨by rw [k1, k2]; exact hc, k2, k3, k4⟩
    · rw [setS_other _ (fun e => g ⟨e.1.symm, e.2.symm⟩)]; exact ⟨hc, rfl, rfl, rfl⟩
  cases op with
  | port l' p => cases hs; exact ⟨hc, rfl, rfl, rfl⟩
  | config l' t' ty =>
    obtain ⟨s, b, e, rfl, rfl⟩ := onSlot_inv hs
    rw [← setL_same]
    exact key (by rintro ⟨rfl, rfl⟩; exact absurd rfl (hu ty))
  | addLink l' t' tei sapi =>
    obtain ⟨s, b, e, rfl, rfl⟩ := onSlot_inv hs
    cases e
    rw [← setL_same, addLink_eq]
    exact key (fun _ => ⟨rfl, rfl, rfl, rfl⟩)
  | update l' =>
    cases hs
    obtain ⟨k1, _⟩ := (lineUpdate_ok hE h.inv l' hR).same l t h1 hc
    rw [k1]; exact ⟨hc, rfl, rfl, rfl⟩
  | event l' t' e =>
    simp only [step] at hs
    split at hs
    · split at hs
      · cases hs
      · obtain ⟨x', s, b, e', rfl, rfl⟩ := onBoth_inv hs
        have v := fdCb_ok e'
        exact key (fun _ => ⟨v.cur, v.ty, v.reg, v.fd⟩)
    · cases hs; exact ⟨hc, rfl, rfl, rfl⟩
  | send l' t' m =>
    obtain ⟨s, b, e, rfl, rfl⟩ := onSlot_inv hs
    obtain ⟨rfl, ⟨wr, rfl⟩, _⟩ := send_eq e
    rw [← setL_same]
    exact key (fun _ => ⟨rfl, rfl, rfl, rfl⟩)
  | timeout l' t' =>
    simp only [step] at hs
    split at hs
    · split at hs
      · cases hs
      · obtain ⟨s, b, e', rfl, rfl⟩ := onSlot_inv hs
        cases e'
        rw [← setL_same, timeout_eq]
        exact key (fun _ => ⟨rfl, rfl, rfl, rfl⟩)
    · cases hs; exact ⟨hc, rfl, rfl, rfl⟩
  | lapdTx l' t' m n =>
    simp only [step] at hs
    split at hs
    · split at hs
      · cases hs
      · obtain ⟨s, b, e', rfl, rfl⟩ := onSlot_inv hs
        obtain ⟨rfl, d, rfl⟩ := lapdTx_inv e'
        rw [← setL_same]
        exact key (fun _ => ⟨rfl, rfl, rfl, rfl⟩)
    · cases hs; exact ⟨hc, rfl, rfl, rfl⟩
  | sa l' b n => simp only [step] at hs; split at hs <;> cases hs <;> exact ⟨hc, rfl, rfl, rfl⟩
  | release l' => cases hs; exact ⟨hc, rfl, rfl, rfl⟩

theorem run_cur {E : Env} (hE : NotStdin E) (hR : Errors E) {l t : Nat} (h1 : 1 ≤ t) : ∀ (ops : List Op) {w w' : W} {a : Acts}, RInv w → Sane ops → Unchanged l t ops → (w.s l t).cur = (w.s l t).ty →
    run E w ops = .ok (w', a) → RInv w' ∧ (w'.s l t).cur = (w'.s l t).ty ∧ (w'.s l t).ty = (w.s l t).ty ∧ (w'.s l t).reg = (w.s l t).reg ∧ (w'.s l t).fd = (w.s l t).fd := by
  intro ops
  induction ops with
  | nil => intro w w' a h _ _ hc hs; cases hs; exact ⟨h, hc, rfl, rfl, rfl⟩
  | cons op ops ih =>
    intro w w' a h ho hu hc hs
    obtain ⟨w1, a1, a2, e1, e2, rfl⟩ := run_cons hs
    have k1 := step_ok hE hR h (ho op (List.mem_cons_self ..)) e1
    have q1 := step_cur hE hR h h1 hc (hu op (List.mem_cons_self ..)) e1
    have q2 := ih k1.inv (fun o m => ho o (List.mem_cons_of_mem _ m)) (fun o m => hu o (List.mem_cons_of_mem _ m)) q1.1 e2
    exact ⟨q2.1, q2.2.1, q2.2.2.1.trans q1.2.1, q2.2.2.2.1.trans q1.2.2.1, q2.2.2.2.2.trans q1.2.2.2⟩

end Verif.Misdn
