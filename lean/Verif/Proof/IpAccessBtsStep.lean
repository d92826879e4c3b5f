import Verif.Proof.IpAccessBts
/-!
# Proofs: the operations of the ip.access BTS
-/
set_option maxRecDepth 10000
namespace Verif.IpAccess.Bts

/-! ### Opening a client -/

/-- the new client of a time slot -/
def fresh (w : W) (t : Nat) : W :=
  { w with sign := setF w.sign t true, clis := w.clis ++ [⟨w.next, t, .connecting⟩], slot := setF w.slot t (some w.next),
           fsms := w.fsms ++ (if w.kap then [⟨w.next + 1, w.next, false⟩] else []),
           ka := (if w.kap then setF w.ka t (some (w.next + 1)) else w.ka),
           next := (if w.kap then w.next + 2 else w.next + 1) }

/-- no new client -/
def failed (w : W) (t : Nat) : W := { w with sign := setF w.sign t true, next := w.next + 1 }

theorem fsm_cli_lt {w : W} (I : Inv w) {y : Fsm} (hy : y ∈ w.fsms) : y.cli < w.next := by
  obtain ⟨t, -, h⟩ := I.kb y hy
  obtain ⟨x, hx, e, -⟩ := I.slot t _ h
  rw [← e]; exact I.bc x hx

theorem fresh_nodup {w : W} (I : Inv w) (t : Nat) (s : St) : ((w.clis ++ [(⟨w.next, t, s⟩ : Cli)]).map Cli.id).Nodup := by
  rw [List.map_append, List.nodup_append]
  refine ⟨I.nc, by simp, ?_⟩
  intro a ha b hb
  obtain ⟨x, hx, rfl⟩ := List.mem_map.1 ha
  simp only [List.map_cons, List.map_nil, List.mem_singleton] at hb
  have := I.bc x hx
  omega

theorem openCli_false {w : W} (I : Inv w) (t : Nat) : openCli w t false = .ok (failed w t, -5, []) := by
  have hg : getCli { w with sign := setF w.sign t true, next := w.next + 1, clis := w.clis ++ [⟨w.next, t, .closed⟩] } w.next = .ok ⟨w.next, t, .closed⟩ :=
    getCli_mem (x := ⟨w.next, t, .closed⟩) (fresh_nodup I t .closed) (by simp)
  simp only [openCli, bind, Except.bind, if_true, cliDestroy, cliClose, hg]
  have h1 : (w.clis ++ [(⟨w.next, t, .closed⟩ : Cli)]).filter (fun x => !(x.id == w.next)) = w.clis := by
    rw [List.filter_append, List.filter_cons_of_neg (by simp), List.filter_nil, List.append_nil, List.filter_eq_self]
    intro x hx
    have := I.bc x hx
    have h : ¬ x.id = w.next := by omega
    simp [h]
  have h2 : w.fsms.filter (fun x => !(x.cli == w.next)) = w.fsms := by
    rw [List.filter_eq_self]
    intro y hy
    have := fsm_cli_lt I hy
    have h : ¬ y.cli = w.next := by omega
    simp [h]
  rw [h1, h2]; rfl

theorem openCli_true {w : W} (I : Inv w) {t : Nat} (hk : w.ka t = none) : openCli w t true = .ok (fresh w t, 0, [.opened w.next]) := by
  have h1 : (w.clis ++ [(⟨w.next, t, .closed⟩ : Cli)]).map (fun x => if x.id == w.next then { x with st := .connecting } else x) = w.clis ++ [⟨w.next, t, .connecting⟩] := by
    rw [List.map_append]
    congr 1
    · conv => rhs; rw [← List.map_id w.clis]
      apply List.map_congr_left
      intro x hx
      have := I.bc x hx
      have h : ¬ x.id = w.next := by omega
      simp [h]
    · simp
  cases hp : w.kap with
  | false =>
    simp only [openCli, bind, Except.bind, Bool.true_eq_false, if_false, kaAlloc, setSt, h1, hk, hp, ne_eq, not_true_eq_false, if_true, fresh, Bool.false_eq_true, List.append_nil]
  | true =>
    simp only [openCli, bind, Except.bind, Bool.true_eq_false, if_false, kaAlloc, setSt, h1, hk, hp, ne_eq, not_true_eq_false, if_true, fresh]

theorem fresh_inv {w : W} (I : Inv w) {t : Nat} (hs : w.slot t = none) (hl : w.il = true) (ht : t < 32) : Inv (fresh w t) := by
  have hk := ka_none I hs
  have mc : ∀ x, x ∈ (fresh w t).clis ↔ x ∈ w.clis ∨ x = ⟨w.next, t, .connecting⟩ := by intro x; simp [fresh]
  have hsl : ∀ u d, (fresh w t).slot u = some d ↔ (u = t ∧ d = w.next) ∨ (u ≠ t ∧ w.slot u = some d) := by
    intro u d
    show (if u = t then some w.next else w.slot u) = some d ↔ _
    split
    · rename_i h; simp [h, eq_comm]
    · rename_i h; simp [h]
  have hne : ∀ u d, w.slot u = some d → u ≠ t := by intro u d h e; rw [e, hs] at h; simp at h
  have mf : ∀ y, y ∈ (fresh w t).fsms ↔ y ∈ w.fsms ∨ (w.kap = true ∧ y = ⟨w.next + 1, w.next, false⟩) := by
    intro y
    simp only [fresh, List.mem_append]
    split
    · rename_i h; simp [h]
    · rename_i h; simp [h]
  have hka : ∀ u f, (fresh w t).ka u = some f ↔ (w.kap = true ∧ u = t ∧ f = w.next + 1) ∨ w.ka u = some f := by
    intro u f
    simp only [fresh]
    split
    · rename_i h
      show (if u = t then some (w.next + 1) else w.ka u) = some f ↔ _
      split
      · rename_i h2; rw [h2, hk]; simp [h, eq_comm]
      · rename_i h2; simp [h2]
    · rename_i h; simp [h]
  have hn : w.next < (fresh w t).next := by
    show w.next < (if w.kap = true then w.next + 2 else w.next + 1)
    split <;> omega
  have hn2 : w.kap = true → (fresh w t).next = w.next + 2 := by
    intro h
    show (if w.kap = true then w.next + 2 else w.next + 1) = _
    rw [if_pos h]
  refine ⟨fresh_nodup I t _, ?_, I.nk, ?_, ?_, ?_, ?_, ?_, ?_, ?_, ?_, ?_, ?_, I.q, ?_⟩
  · show ((w.fsms ++ _).map Fsm.id).Nodup
    rw [List.map_append, List.nodup_append]
    refine ⟨I.nf, by split <;> simp, ?_⟩
    intro a ha b hb
    obtain ⟨y, hy, rfl⟩ := List.mem_map.1 ha
    have := I.bf y hy
    split at hb
    · simp only [List.map_cons, List.map_nil, List.mem_singleton] at hb; omega
    · simp at hb
  · intro x hx
    rcases (mc x).1 hx with hx | rfl
    · have := I.bc x hx; omega
    · exact hn
  · intro y hy
    rcases (mf y).1 hy with hy | ⟨h, rfl⟩
    · have := I.bf y hy; omega
    · rw [hn2 h]; simp
  · intro k hk
    have := I.bk k hk
    omega
  · intro u d h
    rcases (hsl u d).1 h with ⟨rfl, rfl⟩ | ⟨_, h⟩
    · exact ⟨_, (mc _).2 (.inr rfl), rfl, rfl⟩
    · obtain ⟨x, hx, e⟩ := I.slot u d h
      exact ⟨x, (mc x).2 (.inl hx), e⟩
  · intro x hx
    rcases (mc x).1 hx with hx | rfl
    · have h := I.back x hx
      exact (hsl _ _).2 (.inr ⟨hne _ _ h, h⟩)
    · exact (hsl _ _).2 (.inl ⟨rfl, rfl⟩)
  · intro u f h
    rcases (hka u f).1 h with ⟨hp, rfl, rfl⟩ | h
    · exact ⟨_, (mf _).2 (.inr ⟨hp, rfl⟩), rfl, (hsl _ _).2 (.inl ⟨rfl, rfl⟩)⟩
    · obtain ⟨y, hy, e, h2⟩ := I.ka u f h
      exact ⟨y, (mf y).2 (.inl hy), e, (hsl _ _).2 (.inr ⟨hne _ _ h2, h2⟩)⟩
  · intro y hy
    rcases (mf y).1 hy with hy | ⟨hp, rfl⟩
    · obtain ⟨u, h1, h2⟩ := I.kb y hy
      exact ⟨u, (hka _ _).2 (.inr h1), (hsl _ _).2 (.inr ⟨hne _ _ h2, h2⟩)⟩
    · exact ⟨t, (hka _ _).2 (.inl ⟨hp, rfl, rfl⟩), (hsl _ _).2 (.inl ⟨rfl, rfl⟩)⟩
  · intro y hy hr
    rcases (mf y).1 hy with hy | ⟨hp, rfl⟩
    · obtain ⟨x, hx, e⟩ := I.run y hy hr
      exact ⟨x, (mc x).2 (.inl hx), e⟩
    · simp at hr
  · intro u h
    show (if u = t then true else w.sign u) = true
    split
    · rfl
    · rename_i hu
      apply I.sg u
      intro e
      apply h
      show (if u = t then some w.next else w.slot u) = none
      rw [if_neg hu, e]
  · intro h
    have : w.il = false := h
    rw [hl] at this; simp at this
  · intro x hx
    rcases (mc x).1 hx with hx | rfl
    · exact I.rng x hx
    · exact ht

theorem failed_inv {w : W} (I : Inv w) (t : Nat) : Inv (failed w t) := by
  refine ⟨I.nc, I.nf, I.nk, ?_, ?_, ?_, I.slot, I.back, I.ka, I.kb, I.run, ?_, I.il, I.q, I.rng⟩
  · intro x hx; exact Nat.lt_succ_of_lt (I.bc x hx)
  · intro x hx; exact Nat.lt_succ_of_lt (I.bf x hx)
  · intro x hx; exact Nat.lt_succ_of_lt (I.bk x hx)
  · intro u h
    show (if u = t then true else w.sign u) = true
    split
    · rfl
    · exact I.sg u h

theorem withIl_inv {w : W} (I : Inv w) : Inv { w with il := true } :=
  ⟨I.nc, I.nf, I.nk, I.bc, I.bf, I.bk, I.slot, I.back, I.ka, I.kb, I.run, I.sg, (by intro h; simp at h), I.q, I.rng⟩

theorem withKap_inv {w : W} (I : Inv w) (b : Bool) : Inv { w with kap := b } :=
  ⟨I.nc, I.nf, I.nk, I.bc, I.bf, I.bk, I.slot, I.back, I.ka, I.kb, I.run, I.sg, I.il, I.q, I.rng⟩

/-- the state after a client was opened, or not -/
def reopened (w : W) (t : Nat) (ok : Bool) : W := if ok then fresh (clear w t) t else failed (clear w t) t

theorem clear_ext {w : W} (t : Nat) : (clear w t).links = w.links ∧ (clear w t).kap = w.kap ∧ (clear w t).il = w.il ∧ (clear w t).next = w.next ∧
    (clear w t).pcap = w.pcap ∧ (clear w t).cf = w.cf := by
  simp only [clear]
  split
  · simp
  · rename_i x _
    obtain ⟨-, h2, h3, h4, h5, h6, h7, -⟩ := shut_ext (noKa w t) x
    simp only [gone, h2, h3, h4, h5, h6, h7]
    simp [noKa]

theorem reopened_inv {w : W} (I : Inv w) {t : Nat} (hl : w.il = true) (ht : t < 32) (ok : Bool) : Inv (reopened w t ok) := by
  obtain ⟨I1, h1, h2⟩ := clear_inv I t
  cases ok with
  | true => exact fresh_inv I1 h1 (by rw [(clear_ext t).2.2.1]; exact hl) ht
  | false => exact failed_inv I1 t

def rcOf (ok : Bool) : Int := if ok then 0 else -5

def openActs (w : W) (t : Nat) (ok : Bool) : List Act := clearActs w t ++ (if ok then [.opened w.next] else [])

theorem openCli_eq {w : W} (I : Inv w) (t : Nat) (ok : Bool) (hk : w.ka t = none) :
    openCli w t ok = .ok (if ok then fresh w t else failed w t, rcOf ok, if ok then [.opened w.next] else []) := by
  cases ok with
  | true => exact openCli_true I hk
  | false => exact openCli_false I t

theorem lineUpdate_eq {w : W} (I : Inv w) (ok : Bool) :
    lineUpdate w ok = .ok (reopened { w with il := true } omlTs ok, rcOf ok, openActs { w with il := true } omlTs ok) := by
  have I0 := withIl_inv I
  obtain ⟨I1, h1, h2⟩ := clear_inv I0 omlTs
  simp only [lineUpdate, bind, Except.bind, dropOml_eq I0, openCli_eq I1 omlTs ok h2, reopened, openActs, (clear_ext (w := { w with il := true }) omlTs).2.2.2.1]

theorem rslTs_ok {trx t : Nat} (h : rslTs trx = some t) : t = 1 + trx ∧ t < 32 := by
  by_cases hc : 1 + trx < NUM_TS
  · rw [rslTs, if_pos hc] at h
    cases h; exact ⟨rfl, hc⟩
  · rw [rslTs, if_neg hc] at h
    simp at h

theorem shutActs_noKa (w : W) (x : Cli) (t : Nat) : shutActs (noKa w t) x = shutActs w x := rfl

theorem clear_noil {w : W} (I : Inv w) (h : w.il = false) (t : Nat) : clear w t = w := by
  simp only [clear, client_none I (I.il h t)]

theorem rslClose_eq {w : W} (I : Inv w) {trx t : Nat} (h1 : trxRefused trx = false) (h2 : rslTs trx = some t) :
    rslClose w trx = .ok (clear w t, 0, clearActs w t) := by
  simp only [rslClose, h1, h2]
  cases hl : w.il with
  | false =>
    simp only [if_true, clear_noil I hl, clearActs, client_none I (I.il hl t)]
  | true =>
    simp only [Bool.true_eq_false, if_false, bind, Except.bind, kaCleanup_inv_eq I t]
    have hs : (noKa w t).slot t = w.slot t := rfl
    rw [hs]
    cases h : w.slot t with
    | none => simp only [clear, clearActs, client_none I h, noKa_id (ka_none I h)]
    | some c =>
      obtain ⟨x, hx, hc, rfl, e2⟩ := client_some I h
      simp only [cliDestroy_eq (noKa_inv I t) (x := x) hx]
      simp only [clear, clearActs, hc, shutActs_noKa, gone]

theorem rslConnect_eq {w : W} (I : Inv w) {trx t : Nat} (h1 : trxRefused trx = false) (h2 : rslTs trx = some t) (ok : Bool) :
    rslConnect w trx ok = .ok (reopened { w with il := true } t ok, rcOf ok, openActs { w with il := true } t ok) := by
  have I0 := withIl_inv I
  obtain ⟨I1, h3, h4⟩ := clear_inv I0 t
  have e : ({ clear w t with il := true } : W) = clear { w with il := true } t := by
    simp only [clear]
    have : client { w with il := true } t = client w t := rfl
    rw [this]
    cases client w t with
    | none => rfl
    | some x =>
      have : shut (noKa { w with il := true } t) x = { shut (noKa w t) x with il := true } := by
        simp only [shut]
        split
        · rfl
        · have hcf : (noKa { w with il := true } t).cf = (noKa w t).cf := rfl
          rw [hcf]
          split <;> rfl
      simp only [this]; rfl
  have hca : clearActs w t = clearActs { w with il := true } t := rfl
  simp only [rslConnect, h1, h2, bind, Except.bind, rslClose_eq I h1 h2]
  rw [if_neg (by omega), e, openCli_eq I1 t ok h4]
  simp only [reopened, openActs, (clear_ext (w := { w with il := true }) t).2.2.2.1, hca]

/-! ### Connecting -/

theorem setRun_mem {w : W} {f : Nat} {b : Bool} {z : Fsm} : z ∈ (setRun w f b).fsms ↔
    ∃ y ∈ w.fsms, z = (if y.id = f then ⟨y.id, y.cli, b⟩ else y) := by
  simp only [setRun, List.mem_map, beq_iff_eq]
  constructor
  · rintro ⟨x, hx, e⟩; exact ⟨x, hx, e.symm⟩
  · rintro ⟨x, hx, e⟩; exact ⟨x, hx, e.symm⟩

theorem setRun_ids (w : W) (f : Nat) (b : Bool) : (setRun w f b).fsms.map Fsm.id = w.fsms.map Fsm.id := by
  simp only [setRun, List.map_map]
  apply List.map_congr_left
  intro x _
  simp only [Function.comp_apply]
  split <;> rfl

theorem setRun_inv {w : W} (I : Inv w) (f : Nat) (b : Bool)
    (h : b = true → ∀ y ∈ w.fsms, y.id = f → ∃ x ∈ w.clis, x.id = y.cli ∧ x.st = .connected) : Inv (setRun w f b) := by
  refine ⟨I.nc, by rw [setRun_ids]; exact I.nf, I.nk, I.bc, ?_, I.bk, I.slot, I.back, ?_, ?_, ?_, I.sg, I.il, I.q, I.rng⟩
  · intro z hz
    obtain ⟨y, hy, rfl⟩ := setRun_mem.1 hz
    split <;> exact I.bf y hy
  · intro t g hg
    obtain ⟨y, hy, e, h2⟩ := I.ka t g hg
    refine ⟨_, setRun_mem.2 ⟨y, hy, rfl⟩, ?_, ?_⟩
    · split <;> exact e
    · split <;> exact h2
  · intro z hz
    obtain ⟨y, hy, rfl⟩ := setRun_mem.1 hz
    obtain ⟨t, h1, h2⟩ := I.kb y hy
    refine ⟨t, ?_, ?_⟩
    · split <;> exact h1
    · split <;> exact h2
  · intro z hz hr
    obtain ⟨y, hy, rfl⟩ := setRun_mem.1 hz
    by_cases hf : y.id = f
    · rw [if_pos hf] at hr ⊢
      exact h hr y hy hf
    · rw [if_neg hf] at hr ⊢
      exact I.run y hy hr

/-- the state after a client was connected -/
theorem connected_good {w : W} (I : Inv w) {x : Cli} (hx : x ∈ w.clis) :
    ∃ w' a, connected w x.id = .ok (w', a) ∧ Inv w' ∧ w'.links = w.links ∧ w'.next = w.next ∧ (a = [] ∨ a = [.ping x.id]) := by
  simp only [connected, bind, Except.bind, getCli_mem I.nc hx]
  by_cases h1 : x.st = .connecting
  · rw [if_neg (by simp [h1])]
    have I1 := setSt_inv I x.id .connected (.inl rfl)
    have hka : (setSt w x.id .connected).ka x.ts = w.ka x.ts := rfl
    cases hk : w.ka x.ts with
    | none =>
      have hk' : (setSt w x.id .connected).ka x.ts = none := hk
      simp only [hk']
      exact ⟨_, _, rfl, I1, rfl, rfl, .inl rfl⟩
    | some f =>
      have hk' : (setSt w x.id .connected).ka x.ts = some f := hk
      simp only [hk']
      obtain ⟨y, hy, rfl, h2⟩ := I.ka _ _ hk
      have hg : getFsm (setSt w x.id .connected) y.id = .ok y := getFsm_mem I1.nf hy
      have hc : y.cli = x.id := by
        rw [I.back x hx] at h2; exact (Option.some.inj h2).symm
      have hm : (⟨x.id, x.ts, .connected⟩ : Cli) ∈ (setSt w x.id .connected).clis := setSt_mem.2 ⟨x, hx, by simp⟩
      have hg2 : getCli (setSt w x.id .connected) y.cli = .ok ⟨x.id, x.ts, .connected⟩ := by
        rw [hc]; exact getCli_mem (x := ⟨x.id, x.ts, .connected⟩) I1.nc hm
      simp only [hg]
      split
      · simp only [hg2]
        refine ⟨_, _, rfl, setRun_inv I1 _ _ ?_, rfl, rfl, .inr (by rw [hc])⟩
        intro _ z hz e
        have := nodup_inj Fsm.id I1.nf hz hy e
        subst this
        exact ⟨_, hm, hc.symm, rfl⟩
      · exact ⟨_, _, rfl, I1, rfl, rfl, .inl rfl⟩
  · rw [if_pos h1]
    exact ⟨_, _, rfl, I, rfl, rfl, .inl rfl⟩

/-! ### Signalling links -/

theorem txFirst_none {t : Nat} : ∀ {ks : List SLink}, (∀ k ∈ ks, k.q = []) → txFirst t ks = none := by
  intro ks
  induction ks with
  | nil => intro _; rfl
  | cons k ks ih =>
    intro h
    simp only [txFirst]
    rw [h k (by simp)]
    rw [ih (fun x hx => h x (List.mem_cons_of_mem _ hx))]
    cases decide (k.ts = t) <;> rfl

def put (k : Nat) (m : List Byte) (ks : List SLink) : List SLink := ks.map (fun y => if y.id == k then { y with q := y.q ++ [m] } else y)

theorem put_other {k : Nat} {m : List Byte} {ks : List SLink} (h : ∀ y ∈ ks, y.id ≠ k) : put k m ks = ks := by
  simp only [put]
  conv => rhs; rw [← List.map_id ks]
  apply List.map_congr_left
  intro y hy
  have := h y hy
  simp [this]

theorem txFirst_put {x : SLink} {m : List Byte} : ∀ {ks : List SLink}, (ks.map SLink.id).Nodup → (∀ k ∈ ks, k.q = []) → x ∈ ks →
    txFirst x.ts (put x.id m ks) = some ({ x with q := [m] }, m, ks) := by
  intro ks
  induction ks with
  | nil => intro _ _ h; simp at h
  | cons k ks ih =>
    intro hn hq hx
    simp only [List.map_cons, List.nodup_cons] at hn
    rcases List.mem_cons.1 hx with h | h
    · subst h
      have hq0 : x.q = [] := hq x (by simp)
      have e : put x.id m (x :: ks) = { x with q := [m] } :: ks := by
        have : put x.id m ks = ks := put_other (fun y hy e => hn.1 (List.mem_map.2 ⟨y, hy, e⟩))
        simp only [put, List.map_cons] at this ⊢
        rw [this]; simp [hq0]
      rw [e]
      have hd : decide (x.ts = x.ts) = true := by simp
      show (match decide (x.ts = x.ts), [m] with
        | true, n :: q => some ({ x with q := [m] }, n, { x with q := q } :: ks)
        | _, _ => _) = _
      rw [hd]
      show some (_, _, _) = some (_, _, _)
      have : ({ x with q := [] } : SLink) = x := by rw [← hq0]
      rw [this]
    · have hne : k.id ≠ x.id := by
        intro e
        exact hn.1 (List.mem_map.2 ⟨x, h, e.symm⟩)
      have hq0 : k.q = [] := hq k (by simp)
      have e : put x.id m (k :: ks) = k :: put x.id m ks := by simp [put, hne]
      rw [e]
      simp only [txFirst, hq0]
      rw [ih hn.2 (fun y hy => hq y (List.mem_cons_of_mem _ hy)) h]
      cases decide (k.ts = x.ts) <;> rfl

theorem queued_put {x : SLink} {m : List Byte} : ∀ {ks : List SLink}, (ks.map SLink.id).Nodup → (∀ k ∈ ks, k.q = []) → x ∈ ks →
    queued (put x.id m ks) = 1 := by
  intro ks
  have h0 : ∀ {ks : List SLink}, (∀ k ∈ ks, k.q = []) → queued ks = 0 := by
    intro ks
    induction ks with
    | nil => intro _; rfl
    | cons k ks ih =>
      intro h
      have := ih (fun y hy => h y (List.mem_cons_of_mem _ hy))
      simp only [queued, List.map_cons, List.sum_cons] at this ⊢
      rw [this, h k (by simp)]; rfl
  induction ks with
  | nil => intro _ _ h; simp at h
  | cons k ks ih =>
    intro hn hq hx
    simp only [List.map_cons, List.nodup_cons] at hn
    rcases List.mem_cons.1 hx with h | h
    · subst h
      have hq0 : x.q = [] := hq x (by simp)
      have e : put x.id m (x :: ks) = { x with q := [m] } :: ks := by
        have : put x.id m ks = ks := put_other (fun y hy e => hn.1 (List.mem_map.2 ⟨y, hy, e⟩))
        simp only [put, List.map_cons] at this ⊢
        rw [this]; simp [hq0]
      rw [e]
      have := h0 (fun y hy => hq y (List.mem_cons_of_mem x hy))
      simp only [queued, List.map_cons, List.sum_cons] at this ⊢
      rw [this]; rfl
    · have hne : k.id ≠ x.id := by
        intro e
        exact hn.1 (List.mem_map.2 ⟨x, h, e.symm⟩)
      have e : put x.id m (k :: ks) = k :: put x.id m ks := by simp [put, hne]
      rw [e]
      have := ih hn.2 (fun y hy => hq y (List.mem_cons_of_mem _ hy)) h
      simp only [queued, List.map_cons, List.sum_cons] at this ⊢
      rw [this, hq k (by simp)]; rfl

theorem tsCli_eq {w : W} {t c : Nat} (hs : w.slot t = some c) (hil : w.il = true) : tsCli w t = .ok c := by
  simp only [tsCli, hs, hil, Bool.true_eq_false, if_false]

/-- a message is sent or dropped at once, the state is unchanged -/
theorem sendmsg_eq {w : W} (I : Inv w) {x : SLink} (hx : x ∈ w.links) {c : Cli} (hc : c ∈ w.clis) (ht : c.ts = x.ts) (m : List Byte) :
    sendmsg w x.id m = if w.pcap = true ∧ Act.drop x.id ∈ sendMsg x c m then .error .badptr else .ok (w, sendMsg x c m) := by
  have hs : w.slot x.ts = some c.id := by rw [← ht]; exact I.back c hc
  have hil : w.il = true := by
    cases e : w.il with
    | true => rfl
    | false => rw [I.il e x.ts] at hs; simp at hs
  have hg : getCli { w with links := put x.id m w.links } c.id = .ok c := getCli_mem (w := { w with links := put x.id m w.links }) I.nc hc
  have hw : writeCb { w with links := put x.id m w.links } x.ts = .ok (w, sendMsg x c m) := by
    simp only [writeCb, tsCli_eq (w := { w with links := put x.id m w.links }) hs hil, bind, Except.bind, hg, queued_put I.nk I.q hx]
    simp only [drain, txFirst_put I.nk I.q hx, List.append_nil]
    rfl
  have hl : w.links.map (fun y => if y.id == x.id then { y with q := y.q ++ [m] } else y) = put x.id m w.links := rfl
  simp only [sendmsg, bind, Except.bind, getLink_mem I.nk hx, hl, hw]

theorem sendmsg_ok {w : W} (I : Inv w) {j : Nat} {m : List Byte} {w' : W} {a : List Act} (h : sendmsg w j m = .ok (w', a)) :
    ∃ x ∈ w.links, x.id = j ∧ ∃ c ∈ w.clis, c.ts = x.ts ∧ w' = w ∧ a = sendMsg x c m := by
  have h0 := h
  simp only [sendmsg, bind, Except.bind] at h
  split at h
  · simp at h
  · rename_i x hg
    obtain ⟨hx, rfl⟩ := getLink_ok hg
    have hsl : ∃ c, w.slot x.ts = some c := by
      cases hs : w.slot x.ts with
      | some c => exact ⟨c, rfl⟩
      | none =>
        exfalso
        have hl : w.links.map (fun y => if y.id == x.id then { y with q := y.q ++ [m] } else y) = put x.id m w.links := rfl
        simp only [hl, writeCb, bind, Except.bind, tsCli, hs] at h
        split at h
        · simp at h
        · rename_i h2
          split at h2
          · rename_i h3
            split at h3
            · cases h3; simp at h2
            · cases h3; simp at h2
          · rename_i h3
            split at h3 <;> simp at h3
    obtain ⟨c, hs⟩ := hsl
    obtain ⟨y, hy, rfl, e⟩ := I.slot _ _ hs
    rw [sendmsg_eq I hx hy e m] at h0
    split at h0
    · simp at h0
    · obtain ⟨e1, e2⟩ := Prod.mk.inj (Except.ok.inj h0)
      exact ⟨x, hx, rfl, y, hy, e, e1.symm, e2.symm⟩

theorem dropLink_inv {w : W} (I : Inv w) (k : Nat) : Inv { w with links := w.links.filter (fun y => !(y.id == k)) } := by
  refine ⟨I.nc, I.nf, ?_, I.bc, I.bf, ?_, I.slot, I.back, I.ka, I.kb, I.run, I.sg, I.il, ?_, I.rng⟩
  · exact (List.Nodup.sublist (List.Sublist.map _ (List.filter_sublist)) I.nk)
  · intro x hx; exact I.bk x (List.mem_filter.1 hx).1
  · intro x hx; exact I.q x (List.mem_filter.1 hx).1

theorem addLink_inv {w : W} (I : Inv w) {k : SLink} (e : k.id = w.next) (hq : k.q = []) : Inv { w with links := w.links ++ [k], next := w.next + 1 } := by
  refine ⟨I.nc, I.nf, ?_, ?_, ?_, ?_, I.slot, I.back, I.ka, I.kb, I.run, I.sg, I.il, ?_, I.rng⟩
  · show ((w.links ++ [k]).map SLink.id).Nodup
    rw [List.map_append, List.nodup_append]
    refine ⟨I.nk, by simp, ?_⟩
    intro a ha b hb
    obtain ⟨x, hx, rfl⟩ := List.mem_map.1 ha
    simp only [List.map_cons, List.map_nil, List.mem_singleton] at hb
    have := I.bk x hx
    omega
  · intro x hx; exact Nat.lt_succ_of_lt (I.bc x hx)
  · intro x hx; exact Nat.lt_succ_of_lt (I.bf x hx)
  · intro x hx
    rcases List.mem_append.1 hx with hx | hx
    · exact Nat.lt_succ_of_lt (I.bk x hx)
    · simp only [List.mem_singleton] at hx
      subst hx
      show x.id < w.next + 1
      omega
  · intro x hx
    rcases List.mem_append.1 hx with hx | hx
    · exact I.q x hx
    · simp only [List.mem_singleton] at hx
      subst hx; exact hq

/-- the state after a link was removed, up to closing the client -/
def unlinked (w : W) (k t : Nat) : W :=
  match w.ka t with
  | none => { w with links := w.links.filter (fun y => !(y.id == k)) }
  | some f => setRun { w with links := w.links.filter (fun y => !(y.id == k)) } f false

theorem unlinked_inv {w : W} (I : Inv w) (k t : Nat) : Inv (unlinked w k t) := by
  simp only [unlinked]
  split
  · exact dropLink_inv I k
  · exact setRun_inv (dropLink_inv I k) _ _ (by intro h; simp at h)

theorem kaStop_eq {w : W} (I : Inv w) (k t : Nat) : kaStop { w with links := w.links.filter (fun y => !(y.id == k)) } t = .ok (unlinked w k t) := by
  simp only [kaStop, unlinked]
  cases h : w.ka t with
  | none => rfl
  | some f =>
    obtain ⟨y, hy, rfl, -⟩ := I.ka t f h
    have hg : getFsm { w with links := w.links.filter (fun y => !(y.id == k)) } y.id = .ok y := getFsm_mem (w := { w with links := w.links.filter (fun y => !(y.id == k)) }) I.nf hy
    simp only [hg, bind, Except.bind]

theorem unlinked_ext (w : W) (k t : Nat) : (unlinked w k t).clis = w.clis ∧ (unlinked w k t).slot = w.slot ∧ (unlinked w k t).il = w.il ∧
    (unlinked w k t).links = w.links.filter (fun y => !(y.id == k)) ∧ (unlinked w k t).next = w.next ∧ (unlinked w k t).cf = w.cf := by
  simp only [unlinked]
  split <;> simp [setRun]

theorem linkDestroy_eq {w : W} (I : Inv w) {x : SLink} (hx : x ∈ w.links) {c : Cli} (hc : c ∈ w.clis) (ht : c.ts = x.ts) :
    linkDestroy w x.id = .ok (shut (unlinked w x.id x.ts) c, shutActs w c) := by
  have hs : w.slot x.ts = some c.id := by rw [← ht]; exact I.back c hc
  have hil : w.il = true := by
    cases e : w.il with
    | true => rfl
    | false => rw [I.il e x.ts] at hs; simp at hs
  obtain ⟨e1, e2, e3, -, -, e4⟩ := unlinked_ext w x.id x.ts
  have hts : tsCli (unlinked w x.id x.ts) x.ts = .ok c.id := tsCli_eq (by rw [e2]; exact hs) (by rw [e3]; exact hil)
  simp only [linkDestroy, bind, Except.bind, getLink_mem I.nk hx, kaStop_eq I, hts]
  have hm : c ∈ (unlinked w x.id x.ts).clis := by rw [e1]; exact hc
  rw [cliClose_eq (unlinked_inv I _ _) hm]
  simp only [shutActs, e4]

theorem linkDestroy_ok {w : W} (I : Inv w) {j : Nat} {w' : W} {a : List Act} (h : linkDestroy w j = .ok (w', a)) :
    ∃ x ∈ w.links, x.id = j ∧ ∃ c ∈ w.clis, c.ts = x.ts ∧ w' = shut (unlinked w x.id x.ts) c ∧ a = shutActs w c := by
  have h0 := h
  simp only [linkDestroy, bind, Except.bind] at h
  split at h
  · simp at h
  · rename_i x hg
    obtain ⟨hx, rfl⟩ := getLink_ok hg
    rw [kaStop_eq I] at h
    simp only [tsCli] at h
    obtain ⟨e1, e2, e3, -, -, e4⟩ := unlinked_ext w x.id x.ts
    rw [e2, e3] at h
    cases hs : w.slot x.ts with
    | none =>
      exfalso
      rw [hs] at h
      split at h
      · simp at h
      · rename_i h2
        split at h2 <;> simp at h2
    | some c =>
      obtain ⟨y, hy, rfl, e⟩ := I.slot _ _ hs
      rw [linkDestroy_eq I hx hy e] at h0
      obtain ⟨e1, e2⟩ := Prod.mk.inj (Except.ok.inj h0)
      exact ⟨x, hx, rfl, y, hy, e, e1.symm, e2.symm⟩

end Verif.IpAccess.Bts
