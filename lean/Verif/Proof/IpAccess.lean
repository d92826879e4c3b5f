import Verif.Spec.IpAccess
/-!
# Invariants of the ip.access BSC
-/
namespace Verif.IpAccess.Bsc

structure Inv (w : W) : Prop where
  L : ∀ l, w.lines l = tally (attached w l) (linked w l)
  nc : (w.conns.map Conn.id).Nodup
  nk : (w.links.map SLink.id).Nodup
  fc : ∀ x ∈ w.conns, x.id < w.next ∧ x.line < w.next
  fk : ∀ k ∈ w.links, k.id < w.next ∧ k.line < w.next
  T : ∀ l t c, (w.ts l t).conn = some c → At w c l t

theorem init_inv (kap pcap : Bool) : Inv (init kap pcap) := by
  constructor <;> simp [init, attached, linked, tally, noTs]

theorem countP_remove {α : Type} (f : α → Nat) {l : List α} (hn : (l.map f).Nodup) {r : α} (hr : r ∈ l) (p : α → Bool) :
    (l.filter (fun q => !(f q == f r))).countP p + (if p r then 1 else 0) = l.countP p := by
  induction l with
  | nil => simp at hr
  | cons q l ih =>
    simp only [List.map_cons, List.nodup_cons] at hn
    rcases List.mem_cons.1 hr with rfl | hr'
    · have hf : l.filter (fun q => !(f q == f r)) = l := by
        rw [List.filter_eq_self]
        intro a ha
        have : f a ≠ f r := fun h => hn.1 (h ▸ List.mem_map_of_mem ha)
        simpa using this
      rw [List.filter_cons_of_neg (by simp), hf, List.countP_cons]
    · have hne : f q ≠ f r := fun h => hn.1 (h ▸ List.mem_map_of_mem hr')
      rw [List.filter_cons_of_pos (by simpa using hne), List.countP_cons, List.countP_cons]
      have := ih hn.2 hr'
      omega

theorem countP_replace {α : Type} (f : α → Nat) {l : List α} (hn : (l.map f).Nodup) {r y : α} (hr : r ∈ l) (p : α → Bool) :
    (l.map (fun q => if f q == f r then y else q)).countP p + (if p r then 1 else 0) = l.countP p + (if p y then 1 else 0) := by
  induction l with
  | nil => simp at hr
  | cons q l ih =>
    simp only [List.map_cons, List.nodup_cons] at hn
    rcases List.mem_cons.1 hr with rfl | hr'
    · have hf : l.map (fun q => if f q == f r then y else q) = l := by
        conv => rhs; rw [← List.map_id l]
        rw [List.map_inj_left]
        intro a ha
        have : f a ≠ f r := fun h => hn.1 (h ▸ List.mem_map_of_mem ha)
        simp [this]
      simp only [List.map_cons, hf, List.countP_cons, beq_self_eq_true, if_true]
      omega
    · have hne : f q ≠ f r := fun h => hn.1 (h ▸ List.mem_map_of_mem hr')
      have hb : (f q == f r) = false := by simpa using hne
      simp only [List.map_cons, List.countP_cons, hb, Bool.false_eq_true, if_false]
      have := ih hn.2 hr'
      omega

theorem find_id {α : Type} (f : α → Nat) {l : List α} (hn : (l.map f).Nodup) {r : α} (hr : r ∈ l) :
    l.find? (fun q => f q == f r) = some r := by
  induction l with
  | nil => simp at hr
  | cons q l ih =>
    simp only [List.map_cons, List.nodup_cons] at hn
    rcases List.mem_cons.1 hr with rfl | hr'
    · simp
    · have hne : f q ≠ f r := fun h => hn.1 (h ▸ List.mem_map_of_mem hr')
      have hb : (f q == f r) = false := by simpa using hne
      rw [List.find?_cons, hb]
      exact ih hn.2 hr'

theorem getConn_mem {w : W} (I : Inv w) {x : Conn} (hx : x ∈ w.conns) : getConn w x.id = .ok x := by
  simp only [getConn, find_id Conn.id I.nc hx]

theorem getConn_ok {w : W} {c : Nat} {x : Conn} (h : getConn w c = .ok x) : x ∈ w.conns ∧ x.id = c := by
  simp only [getConn] at h
  split at h
  · rename_i y hy
    cases h
    exact ⟨List.mem_of_find?_eq_some hy, by simpa using List.find?_some hy⟩
  · simp at h

theorem getLink_ok {w : W} {k : Nat} {x : SLink} (h : getLink w k = .ok x) : x ∈ w.links ∧ x.id = k := by
  simp only [getLink] at h
  split at h
  · rename_i y hy
    cases h
    exact ⟨List.mem_of_find?_eq_some hy, by simpa using List.find?_some hy⟩
  · simp at h

theorem attached_pos {w : W} {x : Conn} (hx : x ∈ w.conns) : 0 < attached w x.line :=
  List.countP_pos_iff.2 ⟨x, hx, by simp⟩

theorem linked_pos {w : W} {x : SLink} (hx : x ∈ w.links) : 0 < linked w x.line :=
  List.countP_pos_iff.2 ⟨x, hx, by simp⟩

theorem use_eq {w : W} {l : Nat} {b u : Int} (h : w.lines l = some (b, u)) (db du : Int) :
    use w l db du = .ok (if (b + db) + (u + du) = 0 then (setLine w l none, [.freed l]) else (setLine w l (some (b + db, u + du)), [])) := by
  simp only [use, getLine, h, bind, Except.bind]
  split <;> rfl

theorem setLine_setLine (w : W) (l : Nat) (x y : Option (Int × Int)) : setLine (setLine w l x) l y = setLine w l y := by
  simp only [setLine]
  congr 1
  funext a
  split <;> rfl

/-- the state after a connection is closed -/
def without (w : W) (x : Conn) : W :=
  ⟨fun a => if a = x.line then tally (attached w x.line - 1) (linked w x.line) else w.lines a,
   fun a b => if a = x.line ∧ b = x.ts then { w.ts x.line x.ts with conn := none, ka := none } else w.ts a b,
   w.conns.filter (fun y => !(y.id == x.id)), w.links, w.next, w.kap, w.pcap⟩

/-- the FSM of a time slot, if any, exists -/
def kaOk (w : W) (l t : Nat) : Prop := ∀ c, (w.ts l t).ka = some c → ∃ x ∈ w.conns, x.id = c

theorem kaCleanup_eq {w : W} (hn : (w.conns.map Conn.id).Nodup) {l t : Nat} (h : kaOk w l t) :
    kaCleanup w l t = .ok (setTs w l t { w.ts l t with ka := none }) := by
  simp only [kaCleanup]
  split
  · rename_i e
    have : setTs w l t { w.ts l t with ka := none } = w := by
      obtain ⟨wl, wt, wc, wk, wn, wp⟩ := w
      simp only [setTs] at *
      congr 1
      funext a b
      split
      · rename_i hab
        obtain ⟨rfl, rfl⟩ := hab
        cases hx : wt a b with
        | mk c p k s => rw [hx] at e; simp only at e; subst e; rfl
      · rfl
    rw [this]
  · rename_i c e
    obtain ⟨x, hx, rfl⟩ := h c e
    simp only [bind, Except.bind, getConn, find_id Conn.id hn hx]

theorem kaCleanup_ok {w w' : W} {l t : Nat} (h : kaCleanup w l t = .ok w') : kaOk w l t := by
  intro c e
  simp only [kaCleanup, e, bind, Except.bind] at h
  split at h
  · simp at h
  · rename_i x hx
    exact ⟨x, getConn_ok hx⟩

theorem destroy_eq {w : W} (I : Inv w) {x : Conn} (hx : x ∈ w.conns) (hk : kaOk w x.line x.ts) :
    destroy w x.id = .ok (without w x,
      [.down x.line] ++ (if attached w x.line = 1 ∧ linked w x.line = 0 then [.freed x.line] else []) ++ [.closed x.id]) := by
  have hp := attached_pos hx
  have hL := I.L x.line
  have h0 : ¬ (attached w x.line + linked w x.line = 0) := by omega
  rw [tally, if_neg h0] at hL
  simp only [destroy, bind, Except.bind, getConn_mem I hx, use_eq hL]
  rw [if_neg (by omega)]
  have e1 : (setLine w x.line (some ((attached w x.line : Int) + 0, (linked w x.line : Int) + 1))).lines x.line =
      some ((attached w x.line : Int) + 0, (linked w x.line : Int) + 1) := if_pos rfl
  simp only [use_eq e1]
  rw [if_neg (by omega)]
  rw [setLine_setLine]
  simp only
  have hk' : kaOk (setLine w x.line (some ((attached w x.line : Int) + 0 + -1, (linked w x.line : Int) + 1 + 0))) x.line x.ts := hk
  have hcl := kaCleanup_eq (w := setLine w x.line (some ((attached w x.line : Int) + 0 + -1, (linked w x.line : Int) + 1 + 0))) I.nc hk'
  rw [hcl]
  simp only
  have e2 : ∀ (w' : W), w'.lines = (setLine w x.line (some ((attached w x.line : Int) + 0 + -1, (linked w x.line : Int) + 1 + 0))).lines →
      w'.lines x.line = some ((attached w x.line : Int) + 0 + -1, (linked w x.line : Int) + 1 + 0) := by
    intro w' h; rw [h]; exact if_pos rfl
  have key : ∀ w' : W, w'.lines = (setLine w x.line (some ((attached w x.line : Int) + 0 + -1, (linked w x.line : Int) + 1 + 0))).lines →
      use w' x.line 0 (-1) = .ok (if ((attached w x.line : Int) + 0 + -1 + 0) + ((linked w x.line : Int) + 1 + 0 + -1) = 0 then (setLine w' x.line none, [.freed x.line])
        else (setLine w' x.line (some ((attached w x.line : Int) + 0 + -1 + 0, (linked w x.line : Int) + 1 + 0 + -1)), [])) := by
    intro w' h; exact use_eq (e2 w' h) 0 (-1)
  rw [key]
  rotate_left
  · rfl
  by_cases hc : attached w x.line = 1 ∧ linked w x.line = 0
  · have hz : (attached w x.line : Int) + 0 + -1 + 0 + ((linked w x.line : Int) + 1 + 0 + -1) = 0 := by omega
    rw [if_pos hz, if_pos hc]
    simp only [without, setLine, setTs, hc.1, hc.2, tally]
    simp only [List.nil_append, Except.ok.injEq, Prod.mk.injEq, W.mk.injEq, and_true, true_and]
    refine ⟨?_, ?_⟩
    · funext a; by_cases ha : a = x.line <;> simp [ha]
    · funext a b; by_cases hab : a = x.line ∧ b = x.ts <;> simp [hab]
  · have hz : ¬ ((attached w x.line : Int) + 0 + -1 + 0 + ((linked w x.line : Int) + 1 + 0 + -1) = 0) := by omega
    rw [if_neg hz, if_neg hc]
    have ht : ¬ (attached w x.line - 1 + linked w x.line = 0) := by omega
    simp only [without, setLine, setTs, tally, if_neg ht]
    simp only [List.nil_append, Except.ok.injEq, Prod.mk.injEq, W.mk.injEq, and_true, true_and]
    refine ⟨?_, ?_⟩
    · funext a
      by_cases ha : a = x.line
      · simp only [ha, if_true, Option.some.injEq, Prod.mk.injEq]; omega
      · simp [ha]
    · funext a b; by_cases hab : a = x.line ∧ b = x.ts <;> simp [hab]

theorem destroy_ok {w w' : W} {c : Nat} {a : List Act} (I : Inv w) (h : destroy w c = .ok (w', a)) :
    ∃ x ∈ w.conns, x.id = c ∧ kaOk w x.line x.ts ∧ w' = without w x := by
  cases hg : getConn w c with
  | error e => simp [destroy, hg, bind, Except.bind] at h
  | ok x =>
    obtain ⟨hx, rfl⟩ := getConn_ok hg
    refine ⟨x, hx, rfl, ?_⟩
    have hk : kaOk w x.line x.ts := by
      have hp := attached_pos hx
      have hL := I.L x.line
      have h0 : ¬ (attached w x.line + linked w x.line = 0) := by omega
      rw [tally, if_neg h0] at hL
      simp only [destroy, bind, Except.bind, hg, use_eq hL] at h
      rw [if_neg (by omega)] at h
      have e1 : (setLine w x.line (some ((attached w x.line : Int) + 0, (linked w x.line : Int) + 1))).lines x.line =
          some ((attached w x.line : Int) + 0, (linked w x.line : Int) + 1) := if_pos rfl
      simp only [use_eq e1] at h
      rw [if_neg (by omega)] at h
      rw [setLine_setLine] at h
      simp only at h
      cases hc : kaCleanup (setLine w x.line (some ((attached w x.line : Int) + 0 + -1, (linked w x.line : Int) + 1 + 0))) x.line x.ts with
      | error e => rw [hc] at h; simp at h
      | ok w1 => have hh := kaCleanup_ok hc; exact hh
    rw [destroy_eq I hx hk] at h
    exact ⟨hk, (Prod.mk.inj (Except.ok.inj h)).1.symm⟩

theorem without_inv {w : W} (I : Inv w) {x : Conn} (hx : x ∈ w.conns) : Inv (without w x) := by
  have hatt : ∀ l, attached (without w x) l + (if x.line = l then 1 else 0) = attached w l := by
    intro l
    have := countP_remove Conn.id I.nc hx (fun c => c.line == l)
    simp only [beq_iff_eq] at this
    exact this
  constructor
  · intro l
    have hl : linked (without w x) l = linked w l := rfl
    rw [hl]
    have := hatt l
    by_cases h : l = x.line
    · subst h
      simp only [if_true] at this
      have e : attached (without w x) x.line = attached w x.line - 1 := by omega
      rw [e]
      exact if_pos rfl
    · rw [if_neg (fun e => h e.symm)] at this
      have e : attached (without w x) l = attached w l := by omega
      rw [e, ← I.L l]
      exact if_neg h
  · exact I.nc.sublist (List.Sublist.map _ List.filter_sublist)
  · exact I.nk
  · intro y hy; exact I.fc y (List.mem_filter.1 hy).1
  · exact I.fk
  · intro l t c h
    by_cases hlt : l = x.line ∧ t = x.ts
    · have : ((without w x).ts l t).conn = none := by simp [without, hlt]
      rw [this] at h; simp at h
    · have e : (without w x).ts l t = w.ts l t := by simp [without, hlt]
      rw [e] at h
      obtain ⟨y, hy, h1, h2, h3⟩ := I.T l t c h
      refine ⟨y, ?_, h1, h2, h3⟩
      refine List.mem_filter.2 ⟨hy, ?_⟩
      have : y.id ≠ x.id := by
        intro e
        have := getConn_mem I hy
        rw [e, getConn_mem I hx] at this
        have := Except.ok.inj this
        subst this
        exact hlt ⟨h2.symm, h3.symm⟩
      simpa using this

theorem destroy_inv {w w' : W} {c : Nat} {a : List Act} (I : Inv w) (h : destroy w c = .ok (w', a)) : Inv w' := by
  obtain ⟨x, hx, -, -, rfl⟩ := destroy_ok I h
  exact without_inv I hx

theorem lines_some {w : W} (I : Inv w) {l : Nat} (h : 0 < attached w l + linked w l) :
    w.lines l = some ((attached w l : Int), (linked w l : Int)) := by
  rw [I.L l, tally, if_neg (by omega)]

theorem lines_ne {w : W} (I : Inv w) {l : Nat} {v : Int × Int} (h : w.lines l = some v) : 0 < attached w l + linked w l := by
  rw [I.L l, tally] at h
  split at h
  · simp at h
  · omega

/-- the state after the connection `x` was moved to the time slot `nt` of the line `nl`, before its FSM is allocated -/
def moved (w : W) (x : Conn) (nl nt trx : Nat) : W :=
  ⟨fun a => if a = x.line then tally (attached w x.line - 1) (linked w x.line)
     else if a = nl then tally (attached w nl + 1) (linked w nl) else w.lines a,
   fun a b => if a = x.line ∧ b = x.ts then { w.ts x.line x.ts with conn := none }
     else if a = nl ∧ b = nt then { w.ts nl nt with conn := some x.id, priv := SIGN_RSL + trx } else w.ts a b,
   w.conns.map (fun y => if y.id == x.id then ⟨x.id, nl, nt⟩ else y), w.links, w.next, w.kap, w.pcap⟩

theorem attach_eq {w : W} (I : Inv w) {x : Conn} (hx : x ∈ w.conns) {nl trx nt : Nat} (hne : nl ≠ x.line)
    (hnl : 0 < attached w nl + linked w nl) (hnt : rslTs trx = some nt) (hc : (w.ts x.line x.ts).conn = some x.id) :
    attach w x.id x.line x.ts nl trx =
      (kaAlloc (moved w x nl nt trx) nl nt x.id).bind (fun r => (writeCb r.1 nl nt).bind (fun s =>
        .ok (s.1, (if attached w x.line = 1 ∧ linked w x.line = 0 then [.freed x.line] else []) ++ r.2 ++ s.2))) := by
  have hp := attached_pos hx
  simp only [attach, use_eq (lines_some I hnl), hnt, bind, Except.bind]
  have hz0 : ¬ ((attached w nl : Int) + 1 + ((linked w nl : Int) + 0) = 0) := by omega
  rw [if_neg hz0]
  simp only
  have hcc : ∀ v : Ts, ((setTs (setLine w nl (some ((attached w nl : Int) + 1, (linked w nl : Int) + 0))) nl nt v).ts x.line x.ts).conn = some x.id := by
    intro v
    simp only [setTs, setLine]
    rw [if_neg (fun e => hne e.1.symm)]
    exact hc
  have hcond : ∀ {α : Type} (q r : α) (v : Option Nat), v = some x.id → (if v ≠ some x.id then q else r) = r := by
    intro α q r v hv; rw [if_neg]; simp [hv]
  rw [hcond]
  rotate_left
  · exact hcc _
  have hl : ∀ w' : W, w'.lines = (setLine w nl (some ((attached w nl : Int) + 1, (linked w nl : Int) + 0))).lines →
      use w' x.line (-1) 0 = .ok (if ((attached w x.line : Int) + -1) + ((linked w x.line : Int) + 0) = 0 then (setLine w' x.line none, [.freed x.line])
        else (setLine w' x.line (some ((attached w x.line : Int) + -1, (linked w x.line : Int) + 0)), [])) := by
    intro w' h
    refine use_eq ?_ (-1) 0
    rw [h]
    simp only [setLine]
    rw [if_neg (Ne.symm hne)]
    exact lines_some I (by omega)
  rw [hl]
  rotate_left
  · rfl
  have hts : ∀ a b, a = nl ∧ b = nt → ¬ (a = x.line ∧ b = x.ts) := fun a b h e => hne (h.1 ▸ e.1)
  by_cases h1 : attached w x.line = 1 ∧ linked w x.line = 0
  · have hz : (attached w x.line : Int) + -1 + ((linked w x.line : Int) + 0) = 0 := by omega
    rw [if_pos hz, if_pos h1]
    have e : ∀ w' : W, w' = moved w x nl nt trx → kaAlloc w' nl nt x.id = kaAlloc (moved w x nl nt trx) nl nt x.id := by
      intro w' h; rw [h]
    simp only
    rw [e]
    simp only [moved, setLine, setTs, W.mk.injEq, and_true]
    refine ⟨?_, ?_⟩
    · funext a
      by_cases ha : a = x.line
      · simp [ha, h1.1, h1.2, tally]
      · by_cases hb : a = nl
        · simp [hb, hne, tally]
        · simp [ha, hb]
    · funext a b
      by_cases ha : a = x.line ∧ b = x.ts
      · simp [ha, Ne.symm hne]
      · simp [ha]
  · have hz : ¬ ((attached w x.line : Int) + -1 + ((linked w x.line : Int) + 0) = 0) := by omega
    rw [if_neg hz, if_neg h1]
    have e : ∀ w' : W, w' = moved w x nl nt trx → kaAlloc w' nl nt x.id = kaAlloc (moved w x nl nt trx) nl nt x.id := by
      intro w' h; rw [h]
    simp only
    rw [e]
    simp only [moved, setLine, setTs, W.mk.injEq, and_true]
    refine ⟨?_, ?_⟩
    · funext a
      by_cases ha : a = x.line
      · have ht : ¬ (attached w x.line - 1 + linked w x.line = 0) := by omega
        simp only [ha, if_true, tally, if_neg ht, Option.some.injEq, Prod.mk.injEq]; omega
      · by_cases hb : a = nl
        · simp [hb, hne, tally]
        · simp [ha, hb]
    · funext a b
      by_cases ha : a = x.line ∧ b = x.ts
      · simp [ha, Ne.symm hne]
      · simp [ha]

/-- what happens to an attachment otherwise -/
theorem attach_err {w : W} (I : Inv w) {x : Conn} (hx : x ∈ w.conns) {nl trx : Nat} (hne : nl ≠ x.line) {v : W × List Act}
    (h : attach w x.id x.line x.ts nl trx = .ok v) :
    0 < attached w nl + linked w nl ∧ ∃ nt, rslTs trx = some nt ∧ (w.ts x.line x.ts).conn = some x.id := by
  have hnl : 0 < attached w nl + linked w nl := by
    cases hl : w.lines nl with
    | none => simp [attach, use, getLine, hl, bind, Except.bind] at h
    | some q => exact lines_ne I hl
  refine ⟨hnl, ?_⟩
  cases hnt : rslTs trx with
  | none =>
    simp only [attach, use_eq (lines_some I hnl), hnt, bind, Except.bind] at h
    simp at h
  | some nt =>
    refine ⟨nt, rfl, ?_⟩
    simp only [attach, use_eq (lines_some I hnl), hnt, bind, Except.bind] at h
    have hz : ¬ ((attached w nl : Int) + 1 + ((linked w nl : Int) + 0) = 0) := by omega
    rw [if_neg hz] at h
    simp only at h
    split at h
    · simp at h
    · rename_i hn
      simp only [ne_eq, Decidable.not_not] at hn
      rw [← hn]
      simp only [setTs, setLine]
      rw [if_neg (fun e => hne e.1.symm)]

theorem moved_inv {w : W} (I : Inv w) {x : Conn} (hx : x ∈ w.conns) {nl nt trx : Nat} (hne : nl ≠ x.line)
    (hnl : 0 < attached w nl + linked w nl) : Inv (moved w x nl nt trx) := by
  have hatt : ∀ l, attached (moved w x nl nt trx) l + (if x.line = l then 1 else 0) = attached w l + (if nl = l then 1 else 0) := by
    intro l
    have := countP_replace Conn.id (y := ⟨x.id, nl, nt⟩) I.nc hx (fun c => c.line == l)
    simp only [beq_iff_eq] at this
    simpa [attached, moved] using this
  have hids : (moved w x nl nt trx).conns.map Conn.id = w.conns.map Conn.id := by
    simp only [moved, List.map_map]
    rw [List.map_inj_left]
    intro y _
    simp only [Function.comp]
    split
    · rename_i h; simp only [beq_iff_eq] at h; exact h.symm
    · rfl
  have hnll : nl < w.next := by
    by_cases h : 0 < attached w nl
    · obtain ⟨y, hy, e⟩ := List.countP_pos_iff.1 h
      simp only [beq_iff_eq] at e
      exact e ▸ (I.fc y hy).2
    · have h' : 0 < linked w nl := by omega
      obtain ⟨y, hy, e⟩ := List.countP_pos_iff.1 h'
      simp only [beq_iff_eq] at e
      exact e ▸ (I.fk y hy).2
  have hmem : (⟨x.id, nl, nt⟩ : Conn) ∈ (moved w x nl nt trx).conns := List.mem_map.2 ⟨x, hx, by simp⟩
  constructor
  · intro l
    have hl : linked (moved w x nl nt trx) l = linked w l := rfl
    rw [hl]
    have := hatt l
    by_cases h : l = x.line
    · subst h
      simp only [if_true, hne, if_false] at this
      have e : attached (moved w x nl nt trx) x.line = attached w x.line - 1 := by omega
      rw [e]
      exact if_pos rfl
    · rw [if_neg (fun e => h e.symm)] at this
      by_cases h2 : l = nl
      · subst h2
        simp only [if_true] at this
        have e : attached (moved w x l nt trx) l = attached w l + 1 := by omega
        rw [e]
        show (if l = x.line then _ else if l = l then _ else _) = _
        rw [if_neg h, if_pos rfl]
      · rw [if_neg (fun e => h2 e.symm)] at this
        have e : attached (moved w x nl nt trx) l = attached w l := by omega
        rw [e, ← I.L l]
        show (if l = x.line then _ else if l = nl then _ else _) = _
        rw [if_neg h, if_neg h2]
  · rw [hids]; exact I.nc
  · exact I.nk
  · intro y hy
    obtain ⟨z, hz, e⟩ := List.mem_map.1 hy
    split at e
    · subst e; exact ⟨(I.fc x hx).1, hnll⟩
    · subst e; exact I.fc z hz
  · exact I.fk
  · intro l t c h
    by_cases hlt : l = x.line ∧ t = x.ts
    · have : ((moved w x nl nt trx).ts l t).conn = none := by simp [moved, hlt]
      rw [this] at h; simp at h
    · by_cases hnt : l = nl ∧ t = nt
      · have : ((moved w x nl nt trx).ts l t).conn = some x.id := by
          obtain ⟨rfl, rfl⟩ := hnt
          simp [moved, hne]
        rw [this] at h
        simp only [Option.some.injEq] at h
        subst h
        exact ⟨_, hmem, rfl, hnt.1.symm, hnt.2.symm⟩
      · have e : (moved w x nl nt trx).ts l t = w.ts l t := by simp [moved, hlt, hnt]
        rw [e] at h
        obtain ⟨y, hy, h1, h2, h3⟩ := I.T l t c h
        refine ⟨y, ?_, h1, h2, h3⟩
        have : y.id ≠ x.id := by
          intro e
          have := getConn_mem I hy
          rw [e, getConn_mem I hx] at this
          have := Except.ok.inj this
          subst this
          exact hlt ⟨h2.symm, h3.symm⟩
        exact List.mem_map.2 ⟨y, hy, by simp [this]⟩

/-- changes that keep the invariant -/
theorem Inv.congr {w w' : W} (I : Inv w) (hl : w'.lines = w.lines) (hc : w'.conns = w.conns) (hn : w'.next = w.next)
    (hk : w'.links.map (fun k => (k.id, k.line)) = w.links.map (fun k => (k.id, k.line)))
    (ht : ∀ l t, (w'.ts l t).conn = (w.ts l t).conn) : Inv w' := by
  have hcount : ∀ l, linked w' l = linked w l := by
    intro l
    have : ∀ ks : List SLink, ks.countP (fun k => k.line == l) = (ks.map (fun k => (k.id, k.line))).countP (fun p => p.2 == l) := by
      intro ks; rw [List.countP_map]; rfl
    simp only [linked, this, hk]
  have hids : w'.links.map SLink.id = w.links.map SLink.id := by
    have := congrArg (List.map Prod.fst) hk
    simpa [List.map_map, Function.comp_def] using this
  constructor
  · intro l
    rw [hl, I.L l, hcount l]
    simp only [attached, hc]
  · rw [hc]; exact I.nc
  · rw [hids]; exact I.nk
  · rw [hc, hn]; exact I.fc
  · intro k hkm
    rw [hn]
    have : (k.id, k.line) ∈ w.links.map (fun k => (k.id, k.line)) := hk ▸ List.mem_map.2 ⟨k, hkm, rfl⟩
    obtain ⟨k', hk', e⟩ := List.mem_map.1 this
    simp only [Prod.mk.injEq] at e
    rw [← e.1, ← e.2]; exact I.fk k' hk'
  · intro l t c h
    rw [ht] at h
    obtain ⟨y, hy, r⟩ := I.T l t c h
    exact ⟨y, by rw [hc]; exact hy, r⟩

theorem txFirst_ids {l t : Nat} {ks ks' : List SLink} {k : SLink} {m : List Byte} (h : txFirst l t ks = some (k, m, ks')) :
    ks'.map (fun k => (k.id, k.line)) = ks.map (fun k => (k.id, k.line)) := by
  induction ks generalizing ks' k m with
  | nil => simp [txFirst] at h
  | cons a ks ih =>
    simp only [txFirst] at h
    split at h
    · simp only [Option.some.injEq, Prod.mk.injEq] at h
      rw [← h.2.2]; rfl
    · simp only [Option.map_eq_some_iff] at h
      obtain ⟨⟨k1, m1, ks1⟩, h1, h2⟩ := h
      simp only [Prod.mk.injEq] at h2
      rw [← h2.2.2, List.map_cons, List.map_cons, ih h1]

theorem drain_ids (l t c : Nat) (fuel : Nat) (ks : List SLink) :
    (drain l t c fuel ks).1.map (fun k => (k.id, k.line)) = ks.map (fun k => (k.id, k.line)) := by
  induction fuel generalizing ks with
  | zero => rfl
  | succ n ih =>
    simp only [drain]
    split
    · rfl
    · rename_i k m ks' h
      simp only [ih]
      exact txFirst_ids h

theorem setTs_conn {w : W} {l t : Nat} {x : Ts} (hx : x.conn = (w.ts l t).conn) (a b : Nat) : ((setTs w l t x).ts a b).conn = (w.ts a b).conn := by
  simp only [setTs]
  split
  · rename_i h; rw [h.1, h.2]; exact hx
  · rfl

theorem kaAlloc_ok {w w' : W} {l t c : Nat} {a : List Act} (hn : (w.conns.map Conn.id).Nodup) (h : kaAlloc w l t c = .ok (w', a)) :
    kaOk w l t ∧ w' = setTs w l t { w.ts l t with ka := if w.kap then some c else none } ∧ a = if w.kap then [.ping c] else [] := by
  cases hk : kaCleanup w l t with
  | error e => simp [kaAlloc, hk, bind, Except.bind] at h
  | ok w1 =>
    have hko := kaCleanup_ok hk
    rw [kaCleanup_eq hn hko] at hk
    cases hk
    refine ⟨hko, ?_⟩
    simp only [kaAlloc, kaCleanup_eq hn hko, bind, Except.bind] at h
    cases hp : w.kap
    · have hp' : (setTs w l t { w.ts l t with ka := none }).kap = false := hp
      rw [hp'] at h
      simp only [Bool.false_eq_true, if_false, Except.ok.injEq, Prod.mk.injEq] at h
      exact ⟨h.1.symm, h.2.symm⟩
    · have hp' : (setTs w l t { w.ts l t with ka := none }).kap = true := hp
      rw [hp'] at h
      simp only [if_true, Except.ok.injEq, Prod.mk.injEq] at h
      refine ⟨?_, h.2.symm⟩
      rw [← h.1]
      simp only [setTs, W.mk.injEq, and_true, true_and]
      funext a b
      by_cases hab : a = l ∧ b = t <;> simp [hab]

theorem kaAlloc_inv {w w' : W} {l t c : Nat} {a : List Act} (I : Inv w) (h : kaAlloc w l t c = .ok (w', a)) : Inv w' := by
  obtain ⟨-, rfl, -⟩ := kaAlloc_ok I.nc h
  exact I.congr rfl rfl rfl rfl (setTs_conn rfl)

theorem writeCb_inv {w w' : W} {l t : Nat} {a : List Act} (I : Inv w) (h : writeCb w l t = .ok (w', a)) : Inv w' := by
  simp only [writeCb] at h
  split at h
  · cases h; exact I
  · split at h
    · cases h
      exact I.congr rfl rfl rfl (drain_ids _ _ _ _ _) (fun _ _ => rfl)
    · simp at h

theorem attach_inv {w w' : W} (I : Inv w) {x : Conn} (hx : x ∈ w.conns) {nl trx : Nat} {a : List Act} (hne : nl ≠ x.line)
    (h : attach w x.id x.line x.ts nl trx = .ok (w', a)) : Inv w' := by
  obtain ⟨hnl, nt, hnt, hc⟩ := attach_err I hx hne h
  rw [attach_eq I hx hne hnl hnt hc] at h
  simp only [bind, Except.bind] at h
  split at h
  · simp at h
  · rename_i v hv
    split at h
    · simp at h
    · rename_i v2 hv2
      cases h
      exact writeCb_inv (kaAlloc_inv (moved_inv I hx hne hnl) hv) hv2

end Verif.IpAccess.Bsc
