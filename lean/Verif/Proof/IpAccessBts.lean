import Verif.Spec.IpAccessBts
/-!
# Proofs: invariant of the ip.access BTS
-/
set_option maxRecDepth 10000
namespace Verif.IpAccess.Bts

structure Inv (w : W) : Prop where
  nc : (w.clis.map Cli.id).Nodup
  nf : (w.fsms.map Fsm.id).Nodup
  nk : (w.links.map SLink.id).Nodup
  bc : ∀ x ∈ w.clis, x.id < w.next
  bf : ∀ y ∈ w.fsms, y.id < w.next
  bk : ∀ k ∈ w.links, k.id < w.next
  slot : ∀ t c, w.slot t = some c → ∃ x ∈ w.clis, x.id = c ∧ x.ts = t
  back : ∀ x ∈ w.clis, w.slot x.ts = some x.id
  ka : ∀ t f, w.ka t = some f → ∃ y ∈ w.fsms, y.id = f ∧ w.slot t = some y.cli
  kb : ∀ y ∈ w.fsms, ∃ t, w.ka t = some y.id ∧ w.slot t = some y.cli
  run : ∀ y ∈ w.fsms, y.run = true → ∃ x ∈ w.clis, x.id = y.cli ∧ x.st = .connected
  sg : ∀ t, w.slot t ≠ none → w.sign t = true
  il : w.il = false → ∀ t, w.slot t = none
  q : ∀ k ∈ w.links, k.q = []
  rng : ∀ x ∈ w.clis, x.ts < 32

/-! ### Lookup -/

theorem nodup_inj {α : Type} (f : α → Nat) : ∀ {l : List α}, (l.map f).Nodup → ∀ {x y : α}, x ∈ l → y ∈ l → f x = f y → x = y := by
  intro l
  induction l with
  | nil => intro _ x y hx; simp at hx
  | cons a l ih =>
    intro h x y hx hy e
    simp only [List.map_cons, List.nodup_cons] at h
    rcases List.mem_cons.1 hx with h1 | h1
    · rcases List.mem_cons.1 hy with h2 | h2
      · rw [h1, h2]
      · exact absurd (List.mem_map.2 ⟨y, h2, by rw [← e, h1]⟩) h.1
    · rcases List.mem_cons.1 hy with h2 | h2
      · exact absurd (List.mem_map.2 ⟨x, h1, by rw [e, h2]⟩) h.1
      · exact ih h.2 h1 h2 e

theorem find_id {α : Type} (f : α → Nat) {l : List α} (h : (l.map f).Nodup) {x : α} (hx : x ∈ l) :
    l.find? (fun y => f y == f x) = some x := by
  cases e : l.find? (fun y => f y == f x) with
  | none => exact absurd (List.find?_eq_none.1 e x hx) (by simp)
  | some y =>
    have h1 := List.mem_of_find?_eq_some e
    have h2 := List.find?_some e
    rw [nodup_inj f h h1 hx (by simpa using h2)]

theorem getCli_mem {w : W} (h : (w.clis.map Cli.id).Nodup) {x : Cli} (hx : x ∈ w.clis) : getCli w x.id = .ok x := by
  rw [getCli, find_id Cli.id h hx]

theorem getCli_ok {w : W} {c : Nat} {x : Cli} (h : getCli w c = .ok x) : x ∈ w.clis ∧ x.id = c := by
  rw [getCli] at h
  split at h
  · rename_i y e
    cases h
    exact ⟨List.mem_of_find?_eq_some e, by simpa using List.find?_some e⟩
  · simp at h

theorem getFsm_mem {w : W} (h : (w.fsms.map Fsm.id).Nodup) {y : Fsm} (hy : y ∈ w.fsms) : getFsm w y.id = .ok y := by
  rw [getFsm, find_id Fsm.id h hy]

theorem getFsm_ok {w : W} {f : Nat} {y : Fsm} (h : getFsm w f = .ok y) : y ∈ w.fsms ∧ y.id = f := by
  rw [getFsm] at h
  split at h
  · rename_i z e
    cases h
    exact ⟨List.mem_of_find?_eq_some e, by simpa using List.find?_some e⟩
  · simp at h

theorem getLink_mem {w : W} (h : (w.links.map SLink.id).Nodup) {k : SLink} (hk : k ∈ w.links) : getLink w k.id = .ok k := by
  rw [getLink, find_id SLink.id h hk]

theorem getLink_ok {w : W} {j : Nat} {k : SLink} (h : getLink w j = .ok k) : k ∈ w.links ∧ k.id = j := by
  rw [getLink] at h
  split at h
  · rename_i z e
    cases h
    exact ⟨List.mem_of_find?_eq_some e, by simpa using List.find?_some e⟩
  · simp at h

/-! ### The FSM of a time slot -/

/-- the FSM of a time slot is freed -/
def noKa (w : W) (t : Nat) : W :=
  { w with fsms := w.fsms.filter (fun y => decide (w.ka t ≠ some y.id)), ka := setF w.ka t none }

theorem kaCleanup_eq {w : W} {t : Nat} (h : ∀ f, w.ka t = some f → ∃ y ∈ w.fsms, y.id = f) : kaCleanup w t = .ok (noKa w t) := by
  cases e : w.ka t with
  | none =>
    have h1 : setF w.ka t none = w.ka := by
      funext j
      simp only [setF]
      split
      · rename_i hj; rw [hj, e]
      · rfl
    have h2 : w.fsms.filter (fun y => decide (w.ka t ≠ some y.id)) = w.fsms := by
      rw [List.filter_eq_self]
      intro y _
      simp [e]
    simp only [kaCleanup, e, noKa]
    rw [h1]
    have h3 : w.fsms.filter (fun y => decide ((none : Option Nat) ≠ some y.id)) = w.fsms := by rw [← h2, e]; simp
    rw [h3]
  | some f =>
    obtain ⟨y, hy, rfl⟩ := h f e
    simp only [kaCleanup, e, noKa, getFsm, bind, Except.bind]
    cases hf : w.fsms.find? (fun x => x.id == y.id) with
    | none => exact absurd (List.find?_eq_none.1 hf y hy) (by simp)
    | some z =>
      simp only []
      congr 2
      apply List.filter_congr
      intro z _
      by_cases hz : z.id = y.id
      · simp [hz]
      · have : ¬ y.id = z.id := fun h => hz h.symm
        simp [hz, this]

theorem kaCleanup_inv_eq {w : W} (I : Inv w) (t : Nat) : kaCleanup w t = .ok (noKa w t) :=
  kaCleanup_eq (fun f e => let ⟨y, hy, e, _⟩ := I.ka t f e; ⟨y, hy, e⟩)

theorem noKa_ka (w : W) (t : Nat) : (noKa w t).ka t = none := by simp [noKa, setF]

theorem ka_inj {w : W} (I : Inv w) {t u f : Nat} (h1 : w.ka t = some f) (h2 : w.ka u = some f) : t = u := by
  obtain ⟨y, hy, e, hs⟩ := I.ka t f h1
  obtain ⟨z, hz, e2, hs2⟩ := I.ka u f h2
  have := nodup_inj Fsm.id I.nf hy hz (by rw [e, e2])
  subst this
  obtain ⟨a, ha, e3, e4⟩ := I.slot t _ hs
  obtain ⟨b, hb, e5, e6⟩ := I.slot u _ hs2
  have := nodup_inj Cli.id I.nc ha hb (by rw [e3, e5])
  subst this
  rw [← e4, e6]

theorem noKa_inv {w : W} (I : Inv w) (t : Nat) : Inv (noKa w t) := by
  have sub : ∀ y, y ∈ (noKa w t).fsms ↔ y ∈ w.fsms ∧ w.ka t ≠ some y.id := by
    intro y; simp [noKa, List.mem_filter]
  refine ⟨I.nc, ?_, I.nk, I.bc, ?_, I.bk, I.slot, I.back, ?_, ?_, ?_, I.sg, I.il, I.q, I.rng⟩
  · exact (List.Nodup.sublist (List.Sublist.map _ (List.filter_sublist)) I.nf)
  · intro y hy; exact I.bf y ((sub y).1 hy).1
  · intro u f h
    have h' : (if u = t then none else w.ka u) = some f := h
    split at h'
    · simp at h'
    · rename_i hu
      obtain ⟨y, hy, e, hs⟩ := I.ka u f h'
      refine ⟨y, (sub y).2 ⟨hy, ?_⟩, e, hs⟩
      rw [e]
      intro h2
      exact hu (ka_inj I h' h2)
  · intro y hy
    obtain ⟨hy, hn⟩ := (sub y).1 hy
    obtain ⟨u, h1, h2⟩ := I.kb y hy
    refine ⟨u, ?_, h2⟩
    show (if u = t then none else w.ka u) = _
    rw [if_neg]
    · exact h1
    · intro e; rw [e] at h1; exact hn h1
  · intro y hy; exact I.run y ((sub y).1 hy).1

/-! ### Closing a client -/

/-- the state after `osmo_stream_cli_close()` -/
def shut (w : W) (x : Cli) : W :=
  if x.st = .closed then w
  else if x.st = .connected ∨ w.cf = true then noKa (setSt w x.id .closed) x.ts
  else setSt w x.id .closed

def shutActs (w : W) (x : Cli) : List Act :=
  if x.st = .closed then [] else if x.st = .connected ∨ w.cf = true then [.closed x.id, .down] else [.closed x.id]

theorem setSt_mem {w : W} {c : Nat} {s : St} {z : Cli} : z ∈ (setSt w c s).clis ↔
    ∃ x ∈ w.clis, z = (if x.id = c then ⟨x.id, x.ts, s⟩ else x) := by
  simp only [setSt, List.mem_map, beq_iff_eq]
  constructor
  · rintro ⟨x, hx, e⟩; exact ⟨x, hx, e.symm⟩
  · rintro ⟨x, hx, e⟩; exact ⟨x, hx, e.symm⟩

theorem setSt_ids (w : W) (c : Nat) (s : St) : (setSt w c s).clis.map Cli.id = w.clis.map Cli.id := by
  simp only [setSt, List.map_map]
  apply List.map_congr_left
  intro x _
  simp only [Function.comp_apply]
  split <;> rfl

theorem cliClose_eq {w : W} (I : Inv w) {x : Cli} (hx : x ∈ w.clis) : cliClose w x.id = .ok (shut w x, shutActs w x) := by
  simp only [cliClose, getCli_mem I.nc hx, bind, Except.bind, shut, shutActs]
  by_cases h1 : x.st = .closed
  · rw [if_pos h1, if_pos h1, if_pos h1]
  · rw [if_neg h1, if_neg h1, if_neg h1]
    by_cases h2 : x.st = .connected ∨ w.cf = true
    · have h2' : x.st = .connected ∨ (setSt w x.id .closed).cf = true := h2
      rw [if_pos h2, if_pos h2', if_pos h2]
      have hm : (⟨x.id, x.ts, .closed⟩ : Cli) ∈ (setSt w x.id .closed).clis := setSt_mem.2 ⟨x, hx, by simp⟩
      have hg : getCli (setSt w x.id .closed) x.id = .ok ⟨x.id, x.ts, .closed⟩ :=
        getCli_mem (x := ⟨x.id, x.ts, .closed⟩) (by rw [setSt_ids]; exact I.nc) hm
      have hk : kaCleanup (setSt w x.id .closed) x.ts = .ok (noKa (setSt w x.id .closed) x.ts) :=
        kaCleanup_eq (fun f e => let ⟨y, hy, e, _⟩ := I.ka x.ts f e; ⟨y, hy, e⟩)
      simp only [downCb, hg, bind, Except.bind]
      have hk' : kaCleanup (setSt w x.id .closed) (Cli.ts ⟨x.id, x.ts, .closed⟩) = .ok (noKa (setSt w x.id .closed) x.ts) := hk
      rw [hk']
    · have h2' : ¬ (x.st = .connected ∨ (setSt w x.id .closed).cf = true) := h2
      rw [if_neg h2, if_neg h2', if_neg h2]

theorem setSt_slot {w : W} (I : Inv w) (c : Nat) (s : St) :
    (∀ t d, w.slot t = some d → ∃ z ∈ (setSt w c s).clis, z.id = d ∧ z.ts = t) ∧
    (∀ z ∈ (setSt w c s).clis, w.slot z.ts = some z.id) ∧ (∀ z ∈ (setSt w c s).clis, z.id < w.next) ∧
    (∀ z ∈ (setSt w c s).clis, z.ts < 32) := by
  refine ⟨?_, ?_, ?_, ?_⟩
  · intro t d h
    obtain ⟨x, hx, e1, e2⟩ := I.slot t d h
    refine ⟨_, setSt_mem.2 ⟨x, hx, rfl⟩, ?_, ?_⟩
    · split <;> exact e1
    · split <;> exact e2
  · intro z hz
    obtain ⟨x, hx, rfl⟩ := setSt_mem.1 hz
    split <;> exact I.back x hx
  · intro z hz
    obtain ⟨x, hx, rfl⟩ := setSt_mem.1 hz
    split <;> exact I.bc x hx
  · intro z hz
    obtain ⟨x, hx, rfl⟩ := setSt_mem.1 hz
    split <;> exact I.rng x hx

/-- a state may change as long as no FSM runs for a client that is not connected -/
theorem setSt_inv {w : W} (I : Inv w) (c : Nat) (s : St) (h : s = .connected ∨ ∀ y ∈ w.fsms, y.cli = c → y.run = false) :
    Inv (setSt w c s) := by
  obtain ⟨h1, h2, h3, h4⟩ := setSt_slot I c s
  refine ⟨by rw [setSt_ids]; exact I.nc, I.nf, I.nk, h3, I.bf, I.bk, h1, h2, I.ka, I.kb, ?_, I.sg, I.il, I.q, h4⟩
  intro y hy hr
  obtain ⟨x, hx, e1, e2⟩ := I.run y hy hr
  by_cases hc : x.id = c
  · rcases h with rfl | h
    · exact ⟨_, setSt_mem.2 ⟨x, hx, rfl⟩, by rw [if_pos hc]; exact e1, by rw [if_pos hc]⟩
    · rw [h y hy (by rw [← e1, hc])] at hr; simp at hr
  · exact ⟨x, setSt_mem.2 ⟨x, hx, by rw [if_neg hc]⟩, e1, e2⟩

theorem fsm_ts {w : W} (I : Inv w) {x : Cli} (hx : x ∈ w.clis) {y : Fsm} (hy : y ∈ w.fsms) (e : y.cli = x.id) : w.ka x.ts = some y.id := by
  obtain ⟨t, h1, h2⟩ := I.kb y hy
  obtain ⟨z, hz, e1, e2⟩ := I.slot t _ h2
  have := nodup_inj Cli.id I.nc hz hx (by rw [e1, e])
  subst this
  rw [e2]; exact h1

theorem noKa_setSt (w : W) (c : Nat) (s : St) (t : Nat) : noKa (setSt w c s) t = setSt (noKa w t) c s := rfl

theorem shut_inv {w : W} (I : Inv w) {x : Cli} (hx : x ∈ w.clis) : Inv (shut w x) := by
  simp only [shut]
  split
  · exact I
  · rename_i h0
    split
    · rw [noKa_setSt]
      apply setSt_inv (noKa_inv I _)
      refine .inr ?_
      intro y hy e
      obtain ⟨hy, hn⟩ := List.mem_filter.1 hy
      simp only [decide_eq_true_eq] at hn
      exact absurd (fsm_ts I hx hy e) hn
    · rename_i h1
      apply setSt_inv I
      refine .inr ?_
      intro y hy e
      cases hr : y.run with
      | false => rfl
      | true =>
        obtain ⟨z, hz, e1, e2⟩ := I.run y hy hr
        have := nodup_inj Cli.id I.nc hz hx (by rw [e1, e])
        subst this
        exact absurd (.inl e2) h1

theorem shut_ext (w : W) (x : Cli) : (shut w x).slot = w.slot ∧ (shut w x).links = w.links ∧ (shut w x).next = w.next ∧
    (shut w x).kap = w.kap ∧ (shut w x).pcap = w.pcap ∧ (shut w x).cf = w.cf ∧ (shut w x).il = w.il ∧ (shut w x).sign = w.sign := by
  simp only [shut]
  split
  · simp
  · split
    · simp [noKa, setSt]
    · simp [setSt]

theorem shut_mem {w : W} (I : Inv w) {x : Cli} (hx : x ∈ w.clis) : (⟨x.id, x.ts, .closed⟩ : Cli) ∈ (shut w x).clis := by
  simp only [shut]
  split
  · rename_i h
    obtain ⟨a, b, s⟩ := x
    simp only at h
    subst h
    exact hx
  · split
    · exact setSt_mem.2 ⟨x, hx, by simp⟩
    · exact setSt_mem.2 ⟨x, hx, by simp⟩

/-! ### Removing a client -/

/-- a client is freed, and its slot cleared -/
def gone (w : W) (c t : Nat) : W :=
  { w with clis := w.clis.filter (fun x => !(x.id == c)), fsms := w.fsms.filter (fun x => !(x.cli == c)), slot := setF w.slot t none }

theorem gone_inv {w : W} (I : Inv w) {c t : Nat} (hs : w.slot t = some c) (hk : w.ka t = none) : Inv (gone w c t) := by
  have mc : ∀ x, x ∈ (gone w c t).clis ↔ x ∈ w.clis ∧ x.id ≠ c := by intro x; simp [gone, List.mem_filter]
  have mf : ∀ y, y ∈ (gone w c t).fsms ↔ y ∈ w.fsms ∧ y.cli ≠ c := by intro x; simp [gone, List.mem_filter]
  have hsl : ∀ u d, (gone w c t).slot u = some d ↔ u ≠ t ∧ w.slot u = some d := by
    intro u d
    show (if u = t then none else w.slot u) = some d ↔ _
    split
    · rename_i h; simp [h]
    · rename_i h; simp [h]
  have hinj : ∀ u, w.slot u = some c → u = t := by
    intro u h
    obtain ⟨x, hx, e1, e2⟩ := I.slot u c h
    obtain ⟨z, hz, e3, e4⟩ := I.slot t c hs
    have := nodup_inj Cli.id I.nc hx hz (by rw [e1, e3])
    subst this
    rw [← e2, e4]
  refine ⟨?_, ?_, I.nk, ?_, ?_, I.bk, ?_, ?_, ?_, ?_, ?_, ?_, ?_, I.q, ?_⟩
  · exact (List.Nodup.sublist (List.Sublist.map _ (List.filter_sublist)) I.nc)
  · exact (List.Nodup.sublist (List.Sublist.map _ (List.filter_sublist)) I.nf)
  · intro x hx; exact I.bc x ((mc x).1 hx).1
  · intro x hx; exact I.bf x ((mf x).1 hx).1
  · intro u d h
    obtain ⟨hu, h⟩ := (hsl u d).1 h
    obtain ⟨x, hx, e1, e2⟩ := I.slot u d h
    refine ⟨x, (mc x).2 ⟨hx, ?_⟩, e1, e2⟩
    intro e
    rw [← e1, e] at h
    exact hu (hinj u h)
  · intro x hx
    obtain ⟨hx, hn⟩ := (mc x).1 hx
    have hb := I.back x hx
    refine (hsl _ _).2 ⟨?_, hb⟩
    intro e
    rw [e, hs] at hb
    exact hn (Option.some.inj hb).symm
  · intro u f h
    have h' : w.ka u = some f := h
    obtain ⟨y, hy, e, h2⟩ := I.ka u f h'
    have hu : u ≠ t := by intro e; rw [e, hk] at h'; simp at h'
    refine ⟨y, (mf y).2 ⟨hy, ?_⟩, e, (hsl _ _).2 ⟨hu, h2⟩⟩
    intro e
    rw [e] at h2
    exact hu (hinj u h2)
  · intro y hy
    obtain ⟨hy, hn⟩ := (mf y).1 hy
    obtain ⟨u, h1, h2⟩ := I.kb y hy
    refine ⟨u, h1, (hsl _ _).2 ⟨?_, h2⟩⟩
    intro e; rw [e, hk] at h1; simp at h1
  · intro y hy hr
    obtain ⟨hy, hn⟩ := (mf y).1 hy
    obtain ⟨x, hx, e1, e2⟩ := I.run y hy hr
    exact ⟨x, (mc x).2 ⟨hx, by rw [e1]; exact hn⟩, e1, e2⟩
  · intro u h
    apply I.sg u
    intro e
    apply h
    show (if u = t then none else w.slot u) = none
    rw [e]; simp
  · intro h u
    show (if u = t then none else w.slot u) = none
    rw [I.il h u]; simp
  · intro x hx; exact I.rng x ((mc x).1 hx).1

/-- the state without the client of a time slot -/
def clear (w : W) (t : Nat) : W :=
  match client w t with
  | none => w
  | some x => gone (shut (noKa w t) x) x.id t

theorem client_some {w : W} (I : Inv w) {t c : Nat} (h : w.slot t = some c) : ∃ x ∈ w.clis, client w t = some x ∧ x.id = c ∧ x.ts = t := by
  obtain ⟨x, hx, e1, e2⟩ := I.slot t c h
  refine ⟨x, hx, ?_, e1, e2⟩
  simp only [client]
  cases hf : w.clis.find? (fun x => x.ts == t) with
  | none => exact absurd (List.find?_eq_none.1 hf x hx) (by simp [e2])
  | some y =>
    have hy := List.mem_of_find?_eq_some hf
    have hp : y.ts = t := by simpa using List.find?_some hf
    have h1 := I.back y hy
    have h2 := I.back x hx
    rw [hp] at h1
    rw [e2, h1] at h2
    rw [nodup_inj Cli.id I.nc hy hx (Option.some.inj h2)]

theorem client_none {w : W} (I : Inv w) {t : Nat} (h : w.slot t = none) : client w t = none := by
  simp only [client]
  apply List.find?_eq_none.2
  intro x hx
  have h1 := I.back x hx
  intro e
  have e : x.ts = t := by simpa using e
  rw [e, h] at h1; simp at h1

theorem ka_none {w : W} (I : Inv w) {t : Nat} (h : w.slot t = none) : w.ka t = none := by
  cases e : w.ka t with
  | none => rfl
  | some f =>
    obtain ⟨y, -, -, h2⟩ := I.ka t f e
    rw [h] at h2; simp at h2

theorem noKa_id {w : W} {t : Nat} (h : w.ka t = none) : noKa w t = w := by
  have := kaCleanup_eq (w := w) (t := t) (by intro f e; rw [h] at e; simp at e)
  simp only [kaCleanup, h] at this
  exact (Except.ok.inj this).symm

theorem shut_ka {w : W} {x : Cli} {t : Nat} (h : w.ka t = none) : (shut w x).ka t = none := by
  simp only [shut]
  split
  · exact h
  · split
    · show (if t = x.ts then none else w.ka t) = none
      rw [h]; simp
    · exact h

theorem clear_inv {w : W} (I : Inv w) (t : Nat) : Inv (clear w t) ∧ (clear w t).slot t = none ∧ (clear w t).ka t = none := by
  simp only [clear]
  cases h : w.slot t with
  | none => rw [client_none I h]; exact ⟨I, h, ka_none I h⟩
  | some c =>
    obtain ⟨x, hx, hc, e1, e2⟩ := client_some I h
    rw [hc]
    simp only []
    have I1 := noKa_inv I t
    have I2 := shut_inv I1 (x := x) hx
    have hk : (shut (noKa w t) x).ka t = none := shut_ka (noKa_ka w t)
    refine ⟨gone_inv I2 ?_ hk, ?_, hk⟩
    · rw [(shut_ext (noKa w t) x).1, e1]; exact h
    · simp [gone, setF]

def clearActs (w : W) (t : Nat) : List Act :=
  match client w t with
  | none => []
  | some x => shutActs w x

theorem filter_shut_closed {w : W} (I : Inv w) {x : Cli} (hx : x ∈ w.clis) : shut (shut w x) ⟨x.id, x.ts, .closed⟩ = shut w x := by
  simp [shut]

theorem cliDestroy_eq {w : W} (I : Inv w) {x : Cli} (hx : x ∈ w.clis) : cliDestroy w x.id =
    .ok ({ shut w x with clis := (shut w x).clis.filter (fun y => !(y.id == x.id)), fsms := (shut w x).fsms.filter (fun y => !(y.cli == x.id)) }, shutActs w x) := by
  simp only [cliDestroy, cliClose_eq I hx, bind, Except.bind]

theorem setSt_gone (w : W) (c : Nat) (s : St) : (setSt w c s).clis.filter (fun y => !(y.id == c)) = w.clis.filter (fun y => !(y.id == c)) := by
  simp only [setSt]
  induction w.clis with
  | nil => rfl
  | cons x l ih =>
    simp only [List.map_cons]
    by_cases h : x.id = c
    · rw [List.filter_cons_of_neg (by simp [h]), List.filter_cons_of_neg (by simp [h])]; exact ih
    · have e : (if (x.id == c) = true then { x with st := s } else x) = x := by simp [h]
      rw [e, List.filter_cons_of_pos (by simp [h]), List.filter_cons_of_pos (by simp [h]), ih]

/-- what is left after a client was freed with the FSM of its time slot -/
theorem clear_eq {w : W} (I : Inv w) {x : Cli} (hx : x ∈ w.clis) {t : Nat} (ht : x.ts = t) : clear w t =
    { w with clis := w.clis.filter (fun y => !(y.id == x.id)), fsms := (noKa w t).fsms.filter (fun y => !(y.cli == x.id)),
             ka := setF w.ka t none, slot := setF w.slot t none } := by
  have hs : w.slot t = some x.id := by rw [← ht]; exact I.back x hx
  obtain ⟨z, hz, hc, e1, e2⟩ := client_some I hs
  have := nodup_inj Cli.id I.nc hz hx e1
  subst this
  simp only [clear, hc, gone, shut]
  split
  · rfl
  · split
    · have h2 : noKa (setSt (noKa w t) z.id .closed) z.ts = setSt (noKa w t) z.id .closed := by
        rw [noKa_setSt, ht, noKa_id (noKa_ka w t)]
      rw [h2]
      have := setSt_gone (noKa w t) z.id .closed
      rw [this]; rfl
    · have := setSt_gone (noKa w t) z.id .closed
      rw [this]; rfl

theorem dropOml_eq {w : W} (I : Inv w) : dropOml w = .ok (clear w omlTs, clearActs w omlTs) := by
  cases h : w.slot omlTs with
  | none =>
    simp only [dropOml, h, clear, clearActs, client_none I h]
  | some c =>
    obtain ⟨x, hx, hc, rfl, e2⟩ := client_some I h
    have I1 := shut_inv I hx
    have hm := shut_mem I hx
    have I2 := noKa_inv I1 omlTs
    have hd := cliDestroy_eq I2 (x := ⟨x.id, x.ts, .closed⟩) hm
    simp only [dropOml, h, bind, Except.bind, cliClose_eq I hx, kaCleanup_inv_eq I1 omlTs]
    have hd' : cliDestroy (noKa (shut w x) omlTs) x.id = _ := hd
    rw [hd']
    simp only [shut, shutActs, clearActs, hc, if_true, List.append_nil]
    rw [clear_eq I hx e2]
    congr 2
    split
    · rfl
    · split
      · have h2 : noKa (noKa (setSt w x.id .closed) x.ts) omlTs = noKa (setSt w x.id .closed) omlTs := by
          rw [e2]; exact noKa_id (noKa_ka _ _)
        rw [h2, noKa_setSt]
        have := setSt_gone (noKa w omlTs) x.id .closed
        rw [this]; rfl
      · rw [noKa_setSt]
        have := setSt_gone (noKa w omlTs) x.id .closed
        rw [this]; rfl

end Verif.IpAccess.Bts
