import Verif.Proof.IpAccessTx
/-!
# The ip.access BSC: what holds in all histories
-/
namespace Verif.IpAccess.Bsc

/-- nothing is held back while a connection is attached -/
def P (w : W) : Prop := ∀ l t c, (w.ts l t).conn = some c → ∀ k ∈ w.links, k.line = l → k.ts = t → k.q = []

/-- what one operation does to the links, and what it sends -/
structure Tx (w w' : W) (op : Op) (a : List Act) : Prop where
  nx : w.next ≤ w'.next
  fr : ∀ k, w.next ≤ k → asked k [op] = [] ∧ sentOn k a = []
  k : ∀ k' ∈ w'.links, (k'.q = [] ∧ w.next ≤ k'.id) ∨ ∃ k ∈ w.links, k.id = k'.id ∧ k.type = k'.type ∧ k.tei = k'.tei ∧
    (known k = true → k.q.map (framed k) ++ (asked k.id [op]).map (framed k) = sentOn k.id a ++ k'.q.map (framed k))
  ch : ∀ c j m, Act.send c j m ∈ a → ∃ k ∈ w'.links, k.id = j ∧ (w'.ts k.line k.ts).conn = some c

theorem send_mem {c j : Nat} {m : List Byte} {a : List Act} (h : Act.send c j m ∈ a) : m ∈ sentOn j a := by
  induction a with
  | nil => simp at h
  | cons x a ih =>
    rcases List.mem_cons.1 h with rfl | h'
    · simp [sentOn]
    · have := ih h'
      cases x <;> simp only [sentOn] <;> try exact this
      split
      · exact List.mem_cons_of_mem _ this
      · exact this

theorem burst_mem {l t c c' j : Nat} {m : List Byte} {ks : List SLink} (h : Act.send c' j m ∈ burst l t c ks) :
    c' = c ∧ ∃ k ∈ ks, k.id = j ∧ k.line = l ∧ k.ts = t := by
  induction ks with
  | nil => simp [burst] at h
  | cons k ks ih =>
    simp only [burst] at h
    rcases List.mem_append.1 h with h | h
    · split at h
      · rename_i hk
        obtain ⟨m0, -, e⟩ := List.mem_map.1 h
        cases e
        exact ⟨rfl, k, List.mem_cons_self, rfl, hk.1, hk.2.1⟩
      · simp at h
    · obtain ⟨e, k', hk', r⟩ := ih h
      exact ⟨e, k', List.mem_cons_of_mem _ hk', r⟩

theorem flush_ch {w : W} {l t c c' j : Nat} {m : List Byte} (hc : (w.ts l t).conn = some c) (h : Act.send c' j m ∈ burst l t c w.links) :
    ∃ k ∈ flush l t w.links, k.id = j ∧ (w.ts k.line k.ts).conn = some c' := by
  obtain ⟨rfl, k, hk, e1, e2, e3⟩ := burst_mem h
  refine ⟨_, List.mem_map.2 ⟨k, hk, rfl⟩, ?_⟩
  rw [if_pos ⟨e2, e3⟩]
  exact ⟨e1, by rw [e2, e3]; exact hc⟩

def Quiet (a : List Act) : Prop := ∀ k, sentOn k a = []

theorem Tx.quiet {w w' : W} {op : Op} {a : List Act} (hop : ∀ k, asked k [op] = []) (ha : Quiet a) (hn : w.next ≤ w'.next)
    (hk : ∀ k' ∈ w'.links, (k'.q = [] ∧ w.next ≤ k'.id) ∨ k' ∈ w.links) : Tx w w' op a :=
  ⟨hn, fun k _ => ⟨hop k, ha k⟩, fun k' h => (hk k' h).elim .inl (fun h' => .inr ⟨k', h', rfl, rfl, rfl, fun _ => by rw [hop, ha]; simp⟩),
    fun c j m h => by have := send_mem h; rw [ha] at this; simp at this⟩

/-- the state after a connection was accepted on the time slot `t` -/
def opened (w : W) (t : Nat) (x : Nat → Ts) : W :=
  ⟨fun a => if a = w.next then some (1, 0) else w.lines a, fun a b => if a = w.next then x b else w.ts a b,
   w.conns ++ [⟨w.next + 1, w.next, t⟩], w.links, w.next + 2, w.kap, w.pcap⟩

theorem opened_inv {w : W} (I : Inv w) {t : Nat} {x : Nat → Ts} (hx : ∀ b, (x b).conn = if b = t then some (w.next + 1) else none) :
    Inv (opened w t x) := by
  have ha : ∀ l, attached (opened w t x) l = attached w l + (if w.next = l then 1 else 0) := by
    intro l
    simp only [attached, opened, List.countP_append, List.countP_cons, List.countP_nil]
    by_cases h : w.next = l <;> simp [h]
  have h0 : attached w w.next = 0 := by
    simp only [attached]
    rw [List.countP_eq_zero]
    intro c hc
    have := (I.fc c hc).2
    simp; omega
  have h1 : linked w w.next = 0 := by
    simp only [linked]
    rw [List.countP_eq_zero]
    intro c hc
    have := (I.fk c hc).2
    simp; omega
  constructor
  · intro l
    have hl : linked (opened w t x) l = linked w l := rfl
    rw [hl, ha l]
    by_cases h : l = w.next
    · subst h
      rw [h0, h1, if_pos rfl]
      exact if_pos rfl
    · rw [if_neg (fun e => h e.symm), Nat.add_zero, ← I.L l]
      exact if_neg h
  · simp only [opened, List.map_append, List.map_cons, List.map_nil]
    refine List.nodup_append.2 ⟨I.nc, by simp, ?_⟩
    intro a ha b hb
    obtain ⟨y, hy, rfl⟩ := List.mem_map.1 ha
    simp only [List.mem_singleton] at hb
    have := (I.fc y hy).1
    omega
  · exact I.nk
  · intro y hy
    simp only [opened]
    rcases List.mem_append.1 hy with h | h
    · have := I.fc y h; omega
    · simp only [List.mem_singleton] at h
      subst h
      simp only; omega
  · intro y hy
    simp only [opened]
    have := I.fk y hy; omega
  · intro l s c h
    by_cases hl : l = w.next
    · subst hl
      have : ((opened w t x).ts w.next s).conn = (x s).conn := by simp [opened]
      rw [this, hx] at h
      split at h
      · rename_i hs
        subst hs
        simp only [Option.some.injEq] at h
        subst h
        exact ⟨⟨w.next + 1, w.next, s⟩, by simp [opened], rfl, rfl, rfl⟩
      · simp at h
    · have : (opened w t x).ts l s = w.ts l s := by simp [opened, hl]
      rw [this] at h
      obtain ⟨y, hy, r⟩ := I.T l s c h
      exact ⟨y, List.mem_append_left _ hy, r⟩

theorem opened_P {w : W} (I : Inv w) (hP : P w) (t : Nat) (x : Nat → Ts) : P (opened w t x) := by
  intro l s c h k hk e1 e2
  have hl : l ≠ w.next := by
    have := (I.fk k hk).2
    intro e; omega
  have : (opened w t x).ts l s = w.ts l s := by simp [opened, hl]
  rw [this] at h
  exact hP l s c h k hk e1 e2

theorem without_P {w : W} (hP : P w) (x : Conn) : P (without w x) := by
  intro l s c h k hk e1 e2
  by_cases hlt : l = x.line ∧ s = x.ts
  · have : ((without w x).ts l s).conn = none := by simp [without, hlt]
    rw [this] at h; simp at h
  · have e : (without w x).ts l s = w.ts l s := by simp [without, hlt]
    rw [e] at h
    exact hP l s c h k hk e1 e2

theorem destroy_acts {w w' : W} {c : Nat} {a : List Act} (I : Inv w) (h : destroy w c = .ok (w', a)) : Quiet a := by
  obtain ⟨x, hx, rfl, hk, rfl⟩ := destroy_ok I h
  rw [destroy_eq I hx hk] at h
  cases h
  intro k
  by_cases hc : attached w x.line = 1 ∧ linked w x.line = 0 <;> simp [hc, sentOn]

theorem destroy_tx {w w' : W} {c : Nat} {op : Op} {a : List Act} (I : Inv w) (hop : ∀ k, asked k [op] = []) (h : destroy w c = .ok (w', a)) :
    Tx w w' op a := by
  refine Tx.quiet hop (destroy_acts I h) ?_ ?_
  · obtain ⟨x, hx, rfl, hk, rfl⟩ := destroy_ok I h
    exact Nat.le_refl _
  · obtain ⟨x, hx, rfl, hk, rfl⟩ := destroy_ok I h
    exact fun k' h => .inr h

theorem destroy_P {w w' : W} {c : Nat} {a : List Act} (I : Inv w) (hP : P w) (h : destroy w c = .ok (w', a)) : P w' := by
  obtain ⟨x, hx, rfl, hk, rfl⟩ := destroy_ok I h
  exact without_P hP x

structure Good (w w' : W) (op : Op) (a : List Act) : Prop where
  I : Inv w'
  P : P w'
  tx : Tx w w' op a

theorem destroy_good {w w' : W} {c : Nat} {op : Op} {a : List Act} (I : Inv w) (hP : P w) (hop : ∀ k, asked k [op] = [])
    (h : destroy w c = .ok (w', a)) : Good w w' op a :=
  ⟨destroy_inv I h, destroy_P I hP h, destroy_tx I hop h⟩

/-- a connection was accepted, and perhaps closed at once -/
theorem opened_good {w w' : W} (I : Inv w) (hP : P w) {t : Nat} {x : Nat → Ts} (hx : ∀ b, (x b).conn = if b = t then some (w.next + 1) else none)
    {ok : Bool} {op : Op} {a : List Act} (hop : ∀ k, asked k [op] = [])
    (h : (if ok then .ok (opened w t x, []) else destroy (opened w t x) (w.next + 1)) = .ok (w', a)) : Good w w' op a := by
  have I1 := opened_inv I hx
  have P1 := opened_P I hP t x
  have hlk : (opened w t x).links = w.links := rfl
  have hnx : w.next ≤ (opened w t x).next := by simp only [opened]; omega
  cases ok with
  | true =>
    simp only [if_true, Except.ok.injEq, Prod.mk.injEq] at h
    obtain ⟨rfl, rfl⟩ := h
    exact ⟨I1, P1, Tx.quiet hop (fun k => rfl) hnx (fun k' h => .inr h)⟩
  | false =>
    simp only [Bool.false_eq_true, if_false] at h
    refine ⟨destroy_inv I1 h, destroy_P I1 P1 h, Tx.quiet hop (destroy_acts I1 h) ?_ ?_⟩
    · obtain ⟨y, hy, -, hk, rfl⟩ := destroy_ok I1 h
      exact hnx
    · obtain ⟨y, hy, -, hk, rfl⟩ := destroy_ok I1 h
      exact fun k' h => .inr h

theorem omlAccept_good {w w' : W} (I : Inv w) (hP : P w) {ok : Bool} {a : List Act} (h : omlAccept w ok = .ok (w', a)) :
    Good w w' (.omlAccept ok) a := by
  refine opened_good I hP (t := omlTs) (x := fun b => if b = omlTs then ⟨some (w.next + 1), SIGN_OML, none, true⟩ else noTs) (ok := ok) ?_ (fun _ => rfl) h
  intro b
  by_cases hb : b = omlTs <;> simp [hb, noTs]

theorem rslAccept_good {w w' : W} (I : Inv w) (hP : P w) {ok : Bool} {a : List Act} (h : rslAccept w ok = .ok (w', a)) :
    Good w w' (.rslAccept ok) a := by
  refine opened_good I hP (t := 1) (x := fun b => if b = 1 then ⟨some (w.next + 1), SIGN_RSL, none, false⟩ else if b = omlTs then ⟨none, 0, none, true⟩ else noTs) (ok := ok) ?_ (fun _ => rfl) h
  intro b
  by_cases hb : b = 1
  · simp [hb]
  · simp only [hb, if_false]
    split <;> rfl

theorem setTs_P {w : W} (hP : P w) {l t : Nat} {x : Ts} (hx : x.conn = (w.ts l t).conn) : P (setTs w l t x) := by
  intro l' s c h k hk e1 e2
  rw [setTs_conn hx] at h
  exact hP l' s c h k hk e1 e2

theorem kaAlloc_good {w w' : W} {l t c : Nat} {op : Op} {a : List Act} (I : Inv w) (hP : P w) (hop : ∀ k, asked k [op] = [])
    (h : kaAlloc w l t c = .ok (w', a)) : Good w w' op a := by
  refine ⟨kaAlloc_inv I h, ?_, ?_⟩
  · obtain ⟨-, rfl, -⟩ := kaAlloc_ok I.nc h
    exact setTs_P hP rfl
  · obtain ⟨-, rfl, rfl⟩ := kaAlloc_ok I.nc h
    refine Tx.quiet hop ?_ (Nat.le_refl _) (fun k' h => .inr h)
    intro k
    cases w.kap <;> rfl

theorem flush_mem {l t : Nat} {ks : List SLink} {k' : SLink} (h : k' ∈ flush l t ks) :
    ∃ k ∈ ks, k' = if k.line = l ∧ k.ts = t then { k with q := [] } else k := by
  obtain ⟨k, hk, e⟩ := List.mem_map.1 h
  exact ⟨k, hk, e.symm⟩

theorem flush_q {l t : Nat} {ks : List SLink} {k' : SLink} (h : k' ∈ flush l t ks) (h1 : k'.line = l) (h2 : k'.ts = t) : k'.q = [] := by
  obtain ⟨k, hk, e⟩ := flush_mem h
  split at e
  · rw [e]
  · rename_i hn
    rw [e] at h1 h2
    exact absurd ⟨h1, h2⟩ hn

theorem flush_P {w : W} {l t : Nat} (hP : ∀ l' t' c, ¬ (l' = l ∧ t' = t) → (w.ts l' t').conn = some c → ∀ k ∈ w.links, k.line = l' → k.ts = t' → k.q = []) :
    P ⟨w.lines, w.ts, w.conns, flush l t w.links, w.next, w.kap, w.pcap⟩ := by
  intro l' t' c h k' hk' e1 e2
  by_cases hlt : l' = l ∧ t' = t
  · exact flush_q hk' (e1.trans hlt.1) (e2.trans hlt.2)
  · obtain ⟨k, hk, e⟩ := flush_mem hk'
    have hn : ¬ (k.line = l ∧ k.ts = t) := by
      intro hh
      rw [if_pos hh] at e
      rw [e] at e1 e2
      exact hlt ⟨e1.symm.trans hh.1, e2.symm.trans hh.2⟩
    rw [if_neg hn] at e
    rw [e] at e1 e2 ⊢
    exact hP l' t' c hlt h k hk e1 e2

theorem attach_good {w w' : W} (I : Inv w) (hP : P w) {x : Conn} (hx : x ∈ w.conns) {nl trx : Nat} {op : Op} {a : List Act}
    (hop : ∀ k, asked k [op] = []) (hne : nl ≠ x.line) (h : attach w x.id x.line x.ts nl trx = .ok (w', a)) : Good w w' op a := by
  suffices hg : P w' ∧ Tx w w' op a from ⟨attach_inv I hx hne h, hg.1, hg.2⟩
  obtain ⟨hnl, nt, hnt, hc⟩ := attach_err I hx hne h
  rw [attach_eq I hx hne hnl hnt hc] at h
  simp only [Except.bind] at h
  split at h
  · simp at h
  · rename_i v hv
    split at h
    · simp at h
    · rename_i v2 hv2
      cases h
      have Im := moved_inv (nt := nt) (trx := trx) I hx hne hnl
      obtain ⟨w1, a1⟩ := v
      obtain ⟨w2, a2⟩ := v2
      obtain ⟨-, rfl, rfl⟩ := kaAlloc_ok Im.nc hv
      have hconn : ∀ l t, ((setTs (moved w x nl nt trx) nl nt { (moved w x nl nt trx).ts nl nt with ka := if (moved w x nl nt trx).kap then some x.id else none }).ts l t).conn
          = ((moved w x nl nt trx).ts l t).conn := fun l t => setTs_conn (by rfl) l t
      have hcn : ((moved w x nl nt trx).ts nl nt).conn = some x.id := by simp [moved, hne]
      rcases writeCb_ok hv2 with ⟨hn, -, -⟩ | ⟨c, h1, h2, rfl, rfl⟩
      · have := (hconn nl nt).symm.trans hn
        rw [hcn] at this; simp at this
      · have hl : (setTs (moved w x nl nt trx) nl nt { (moved w x nl nt trx).ts nl nt with ka := if (moved w x nl nt trx).kap then some x.id else none }).links = w.links := rfl
        constructor
        · refine flush_P ?_
          intro l' t' c' hlt hc' k hk e1 e2
          rw [hconn] at hc'
          by_cases hold : l' = x.line ∧ t' = x.ts
          · have : ((moved w x nl nt trx).ts l' t').conn = none := by simp [moved, hold]
            rw [this] at hc'; simp at hc'
          · have : (moved w x nl nt trx).ts l' t' = w.ts l' t' := by simp [moved, hold, hlt]
            rw [this] at hc'
            exact hP l' t' c' hc' k hk e1 e2
        · have hq : ∀ j, sentOn j ((if attached w x.line = 1 ∧ linked w x.line = 0 then [.freed x.line] else []) ++
              (if (moved w x nl nt trx).kap = true then [.ping x.id] else [])) = [] := by
            intro j
            by_cases h1 : attached w x.line = 1 ∧ linked w x.line = 0 <;> cases (moved w x nl nt trx).kap <;> simp [h1, sentOn]
          refine ⟨Nat.le_refl _, ?_, ?_, ?_⟩
          rotate_left 2
          · intro c' j m hm
            rcases List.mem_append.1 hm with hm | hm
            · have := send_mem hm
              rw [hq] at this; simp at this
            · exact flush_ch h1 hm
          · intro j hj
            refine ⟨hop j, ?_⟩
            rw [sentOn_append, hq, List.nil_append]
            refine sentOn_burst_none ?_
            intro k hk e
            have := (I.fk k hk).1
            omega
          · intro k' hk'
            obtain ⟨k, hk, e⟩ := flush_mem hk'
            refine .inr ⟨k, hk, ?_⟩
            have hs : ∀ (_ : known k = true), sentOn k.id (burst nl nt c w.links) = if k.line = nl ∧ k.ts = nt then k.q.map (framed k) else [] :=
              fun hy => sentOn_burst I.nk hk hy
            by_cases hat : k.line = nl ∧ k.ts = nt
            · rw [if_pos hat] at e hs
              subst e
              refine ⟨rfl, rfl, rfl, fun hy => ?_⟩
              rw [hop, sentOn_append, hq]
              have := hs hy
              simp only [hl, this]; simp
            · rw [if_neg hat] at e hs
              subst e
              refine ⟨rfl, rfl, rfl, fun hy => ?_⟩
              rw [hop, sentOn_append, hq]
              have := hs hy
              simp only [hl, this]; simp

theorem nop_good {w : W} {op : Op} (I : Inv w) (hP : P w) (hop : ∀ k, asked k [op] = []) {a : List Act} (ha : Quiet a) : Good w w op a :=
  ⟨I, hP, Tx.quiet hop ha (Nat.le_refl _) (fun _ h => .inr h)⟩

theorem idResp_good {w w' : W} (I : Inv w) (hP : P w) {c trx : Nat} {up : Option Nat} {a : List Act} (h : idResp w c trx up = .ok (w', a)) :
    Good w w' (.idResp c trx up) a := by
  have hop : ∀ k, asked k [.idResp c trx up] = [] := fun _ => rfl
  simp only [idResp, bind, Except.bind] at h
  split at h
  · simp at h
  · rename_i x hg
    obtain ⟨hx, rfl⟩ := getConn_ok hg
    split at h
    · simp at h
    · split at h
      · split at h
        · exact destroy_good I hP hop h
        · exact kaAlloc_good I hP hop h
      · split at h
        · split at h
          · exact destroy_good I hP hop h
          · split at h
            · cases h; exact nop_good I hP hop (fun _ => rfl)
            · rename_i hne
              exact attach_good I hP hx hop hne h
        · cases h; exact nop_good I hP hop (fun _ => rfl)

theorem rx_good {w w' : W} (I : Inv w) (hP : P w) {c : Nat} {p : Byte} {m : List Byte} {a : List Act} (h : rx w c p m = .ok (w', a)) :
    Good w w' (.rx c p m) a := by
  have hop : ∀ k, asked k [.rx c p m] = [] := fun _ => rfl
  simp only [rx, bind, Except.bind] at h
  split at h
  · simp at h
  · split at h
    · simp at h
    · split at h
      · split at h
        · exact destroy_good I hP hop h
        · cases h; exact nop_good I hP hop (fun _ => rfl)
      · exact destroy_good I hP hop h

theorem config_good {w w' : W} (I : Inv w) (hP : P w) {l t : Nat} {a : List Act} (h : config w l t = .ok (w', a)) :
    Good w w' (.config l t) a := by
  simp only [config, bind, Except.bind] at h
  split at h
  · simp at h
  · cases h
    exact ⟨I.congr rfl rfl rfl rfl (setTs_conn rfl), setTs_P hP rfl, Tx.quiet (fun _ => rfl) (fun _ => rfl) (Nat.le_refl _) (fun _ h => .inr h)⟩

theorem linkCreate_good {w w' : W} (I : Inv w) (hP : P w) {l t ty : Nat} {tei sapi : Byte} {a : List Act}
    (h : linkCreate w l t ty tei sapi = .ok (w', a)) : Good w w' (.linkCreate l t ty tei sapi) a := by
  have hop : ∀ k, asked k [.linkCreate l t ty tei sapi] = [] := fun _ => rfl
  simp only [linkCreate, bind, Except.bind, getLine] at h
  cases hl : w.lines l with
  | none => simp [hl] at h
  | some v =>
    simp only [hl] at h
    have hpos := lines_ne I hl
    rw [lines_some I hpos] at hl
    split at h
    · rw [use_eq (lines_some I hpos)] at h
      have hz : ¬ ((attached w l : Int) + 0 + ((linked w l : Int) + 1) = 0) := by omega
      rw [if_neg hz] at h
      cases h
      have hlt : l < w.next := by
        by_cases h : 0 < attached w l
        · obtain ⟨y, hy, e⟩ := List.countP_pos_iff.1 h
          simp only [beq_iff_eq] at e
          exact e ▸ (I.fc y hy).2
        · have h' : 0 < linked w l := by omega
          obtain ⟨y, hy, e⟩ := List.countP_pos_iff.1 h'
          simp only [beq_iff_eq] at e
          exact e ▸ (I.fk y hy).2
      refine ⟨?_, ?_, Tx.quiet hop (fun _ => rfl) (by simp only [setLine]; omega) ?_⟩
      · constructor
        · intro j
          have e1 : linked { setLine w l (some ((attached w l : Int) + 0, (linked w l : Int) + 1)) with
              links := w.links ++ [⟨w.next, l, t, ty, tei, sapi, []⟩], next := w.next + 1 } j = linked w j + (if l = j then 1 else 0) := by
            simp only [linked, List.countP_append, List.countP_cons, List.countP_nil]
            by_cases h : l = j <;> simp [h]
          have e2 : attached { setLine w l (some ((attached w l : Int) + 0, (linked w l : Int) + 1)) with
              links := w.links ++ [⟨w.next, l, t, ty, tei, sapi, []⟩], next := w.next + 1 } j = attached w j := rfl
          show _ = tally (attached _ j) (linked _ j)
          simp only [setLine] at e1 e2 ⊢
          rw [e1, e2]
          by_cases hj : j = l
          · subst hj
            rw [if_pos rfl, if_pos rfl, tally, if_neg (by omega)]
            simp
          · rw [if_neg hj, if_neg (fun e => hj e.symm), I.L j, Nat.add_zero]
        · exact I.nc
        · simp only [setLine, List.map_append, List.map_cons, List.map_nil]
          refine List.nodup_append.2 ⟨I.nk, by simp, ?_⟩
          intro a ha b hb
          obtain ⟨y, hy, rfl⟩ := List.mem_map.1 ha
          simp only [List.mem_singleton] at hb
          have := (I.fk y hy).1
          omega
        · intro y hy
          have := I.fc y hy
          simp only [setLine]; omega
        · intro y hy
          simp only
          rcases List.mem_append.1 hy with h | h
          · have := I.fk y h
            simp only [setLine]; omega
          · simp only [setLine, List.mem_singleton] at h
            subst h
            simp only [setLine]; omega
        · exact I.T
      · intro l' t' c h k hk e1 e2
        rcases List.mem_append.1 hk with h' | h'
        · exact hP l' t' c h k h' e1 e2
        · simp only [List.mem_singleton] at h'
          subst h'; rfl
      · intro k' hk'
        rcases List.mem_append.1 hk' with h' | h'
        · exact .inr h'
        · simp only [setLine, List.mem_singleton] at h'
          subst h'
          exact .inl ⟨rfl, Nat.le_refl _⟩
    · cases h; exact nop_good I hP hop (fun _ => rfl)

/-- other links -/
def wl (w : W) (ks : List SLink) : W := ⟨w.lines, w.ts, w.conns, ks, w.next, w.kap, w.pcap⟩

theorem use_wl (w : W) (ks : List SLink) (l : Nat) (b u : Int) :
    use (wl w ks) l b u = (use w l b u).map (fun r => (wl r.1 ks, r.2)) := by
  simp only [use, getLine, wl, bind, Except.bind]
  cases w.lines l with
  | none => rfl
  | some v =>
    simp only
    split <;> rfl

theorem kaCleanup_wl (w : W) (ks : List SLink) (l t : Nat) : kaCleanup (wl w ks) l t = (kaCleanup w l t).map (fun r => wl r ks) := by
  have hg : ∀ c, getConn (wl w ks) c = getConn w c := fun _ => rfl
  have ht : (wl w ks).ts = w.ts := rfl
  simp only [kaCleanup, bind, Except.bind, ht, hg]
  split
  · rfl
  · split <;> rfl

theorem destroy_wl (w : W) (ks : List SLink) (c : Nat) : destroy (wl w ks) c = (destroy w c).map (fun r => (wl r.1 ks, r.2)) := by
  have hg : getConn (wl w ks) c = getConn w c := rfl
  simp only [destroy, bind, Except.bind, hg]
  cases getConn w c with
  | error e => rfl
  | ok x =>
    simp only [use_wl]
    cases use w x.line 0 1 with
    | error e => rfl
    | ok r1 =>
      simp only [Except.map, use_wl]
      cases use r1.1 x.line (-1) 0 with
      | error e => rfl
      | ok r2 =>
        simp only [Except.map, kaCleanup_wl]
        cases kaCleanup r2.1 x.line x.ts with
        | error e => rfl
        | ok w3 =>
          simp only [Except.map]
          have e : ∀ w4 : W, use (wl w4 ks) x.line 0 (-1) = (use w4 x.line 0 (-1)).map (fun r => (wl r.1 ks, r.2)) := fun w4 => use_wl w4 ks _ _ _
          have := e { setTs w3 x.line x.ts { w3.ts x.line x.ts with conn := none } with conns := w3.conns.filter (fun y => !(y.id == c)) }
          simp only [wl, setTs] at this ⊢
          rw [this]
          cases use _ x.line 0 (-1) with
          | error e => rfl
          | ok r5 => rfl

theorem use_map {w : W} {l : Nat} {b u : Nat} (h : w.lines l = tally b u) (hu : 0 < u) :
    use w l 0 (-1) = .ok (setLine w l (tally b (u - 1)), if b = 0 ∧ u = 1 then [.freed l] else []) := by
  rw [tally, if_neg (by omega)] at h
  rw [use_eq h]
  by_cases hc : b = 0 ∧ u = 1
  · have hz : (b : Int) + 0 + ((u : Int) + -1) = 0 := by omega
    rw [if_pos hz, if_pos hc]
    simp [tally, hc.1, hc.2]
  · have hz : ¬ ((b : Int) + 0 + ((u : Int) + -1) = 0) := by omega
    have ht : ¬ (b + (u - 1) = 0) := by omega
    rw [if_neg hz, if_neg hc, tally, if_neg ht]
    have e : (b : Int) + 0 = (b : Int) := by omega
    have e2 : (u : Int) + -1 = ((u - 1 : Nat) : Int) := by omega
    rw [e, e2]

/-- a link is destroyed -/
def unlink (w : W) (k : SLink) : W :=
  ⟨fun a => if a = k.line then tally (attached w k.line) (linked w k.line - 1) else w.lines a, w.ts, w.conns,
   w.links.filter (fun y => !(y.id == k.id)), w.next, w.kap, w.pcap⟩

theorem unlink_inv {w : W} (I : Inv w) {k : SLink} (hk : k ∈ w.links) : Inv (unlink w k) := by
  have hlk : ∀ l, linked (unlink w k) l + (if k.line = l then 1 else 0) = linked w l := by
    intro l
    have := countP_remove SLink.id I.nk hk (fun c => c.line == l)
    simp only [beq_iff_eq] at this
    exact this
  constructor
  · intro l
    have hl : attached (unlink w k) l = attached w l := rfl
    rw [hl]
    have := hlk l
    by_cases h : l = k.line
    · subst h
      simp only [if_true] at this
      have e : linked (unlink w k) k.line = linked w k.line - 1 := by omega
      rw [e]
      exact if_pos rfl
    · rw [if_neg (fun e => h e.symm)] at this
      have e : linked (unlink w k) l = linked w l := by omega
      rw [e, ← I.L l]
      exact if_neg h
  · exact I.nc
  · exact I.nk.sublist (List.Sublist.map _ List.filter_sublist)
  · exact I.fc
  · intro y hy; exact I.fk y (List.mem_filter.1 hy).1
  · exact I.T

theorem unlink_P {w : W} (hP : P w) (k : SLink) : P (unlink w k) :=
  fun l t c h k' hk' => hP l t c h k' (List.mem_filter.1 hk').1

theorem kaStop_ok {w : W} {l t : Nat} (h : kaStop w l t = .ok ()) : kaOk w l t := by
  intro c hc
  simp only [kaStop, hc, bind, Except.bind] at h
  split at h
  · simp at h
  · rename_i x hx
    exact ⟨x, getConn_ok hx⟩

/-- the outcome of the destruction of a signalling link -/
theorem linkDestroy_ok {w w' : W} (I : Inv w) {j : Nat} {a : List Act} (h : linkDestroy w j = .ok (w', a)) :
    ∃ k ∈ w.links, k.id = j ∧ kaOk w k.line k.ts ∧ Quiet a ∧
      (((w.ts k.line k.ts).conn = none ∧ w' = unlink w k) ∨
       ∃ x ∈ w.conns, (w.ts k.line k.ts).conn = some x.id ∧ x.line = k.line ∧ x.ts = k.ts ∧ w' = unlink (without w x) k) := by
  simp only [linkDestroy, bind, Except.bind] at h
  split at h
  · simp at h
  · rename_i k hg
    obtain ⟨hk, rfl⟩ := getLink_ok hg
    refine ⟨k, hk, rfl, ?_⟩
    have hp := linked_pos hk
    split at h
    · simp at h
    · split at h
      · simp at h
      · rename_i v hv
        obtain ⟨w1, a1⟩ := v
        simp only [ipaClose, bind, Except.bind] at hv
        split at hv
        · simp at hv
        · rename_i hs
          refine ⟨kaStop_ok (w := wl w (w.links.filter (fun y => !(y.id == k.id)))) hs, ?_⟩
          cases hc : (w.ts k.line k.ts).conn with
          | none =>
            rw [hc] at hv
            simp only [Except.ok.injEq, Prod.mk.injEq] at hv
            obtain ⟨rfl, rfl⟩ := hv
            have hl : (wl w (w.links.filter (fun y => !(y.id == k.id)))).lines k.line = tally (attached w k.line) (linked w k.line) := I.L k.line
            have := use_map hl hp
            simp only [wl] at this
            rw [this] at h
            simp only [Except.ok.injEq, Prod.mk.injEq] at h
            refine ⟨?_, .inl ⟨rfl, h.1.symm⟩⟩
            rw [← h.2]
            intro j
            by_cases hc : attached w k.line = 0 ∧ linked w k.line = 1 <;> simp [hc, sentOn]
          | some c =>
            rw [hc] at hv
            simp only at hv
            have e := destroy_wl w (w.links.filter (fun y => !(y.id == k.id))) c
            simp only [wl] at e
            rw [e] at hv
            cases hd : destroy w c with
            | error e => rw [hd] at hv; simp [Except.map] at hv
            | ok r =>
              rw [hd] at hv
              simp only [Except.map, Except.ok.injEq, Prod.mk.injEq] at hv
              obtain ⟨rfl, rfl⟩ := hv
              obtain ⟨r1, r2⟩ := r
              obtain ⟨x, hx, rfl, -, rfl⟩ := destroy_ok I hd
              obtain ⟨y, hy, e1, e2, e3⟩ := I.T _ _ _ hc
              have hxy : y = x := by
                have := getConn_mem I hy
                rw [e1, getConn_mem I hx] at this
                exact (Except.ok.inj this).symm
              subst hxy
              have Iw := without_inv I hy
              have hl : (wl (without w y) (w.links.filter (fun y => !(y.id == k.id)))).lines k.line
                  = tally (attached (without w y) k.line) (linked (without w y) k.line) := Iw.L k.line
              have := use_map hl hp
              simp only [wl] at this
              simp only at h
              rw [this] at h
              simp only [Except.ok.injEq, Prod.mk.injEq] at h
              refine ⟨?_, .inr ⟨y, hy, rfl, e2, e3, h.1.symm⟩⟩
              rw [← h.2]
              intro j
              rw [sentOn_append, destroy_acts I hd j, List.nil_append]
              by_cases hc : attached (without w y) k.line = 0 ∧ linked (without w y) k.line = 1 <;> simp [hc, sentOn]

theorem linkDestroy_good {w w' : W} (I : Inv w) (hP : P w) {j : Nat} {a : List Act} (h : linkDestroy w j = .ok (w', a)) :
    Good w w' (.linkDestroy j) a := by
  obtain ⟨k, hk, -, -, hq, ⟨-, rfl⟩ | ⟨x, hx, -, -, -, rfl⟩⟩ := linkDestroy_ok I h
  · exact ⟨unlink_inv I hk, unlink_P hP k, Tx.quiet (fun _ => rfl) hq (Nat.le_refl _) (fun k' h => .inr (List.mem_filter.1 h).1)⟩
  · exact ⟨unlink_inv (without_inv I hx) hk, unlink_P (without_P hP x) k,
      Tx.quiet (fun _ => rfl) hq (Nat.le_refl _) (fun k' h => .inr (List.mem_filter.1 h).1)⟩

/-- a message is added to the queue of a link -/
def enq (w : W) (j : Nat) (m : List Byte) : W := wl w (w.links.map (fun y => if y.id == j then { y with q := y.q ++ [m] } else y))

theorem sendmsg_ok {w w' : W} {j : Nat} {m : List Byte} {a : List Act} (h : sendmsg w j m = .ok (w', a)) :
    ∃ k ∈ w.links, k.id = j ∧ writeCb (enq w j m) k.line k.ts = .ok (w', a) ∧
      ¬ (w.pcap = true ∧ (w.ts k.line k.ts).conn ≠ none ∧ known k = false) := by
  simp only [sendmsg, bind, Except.bind] at h
  split at h
  · simp at h
  · rename_i k hg
    obtain ⟨hk, rfl⟩ := getLink_ok hg
    refine ⟨k, hk, rfl, ?_⟩
    split at h
    · simp at h
    · split at h
      · simp at h
      · rename_i r hr
        split at h
        · simp at h
        · rename_i hn
          cases h
          exact ⟨hr, hn⟩

theorem sendmsg_good {w w' : W} (I : Inv w) (hP : P w) {j : Nat} {m : List Byte} {a : List Act} (h : sendmsg w j m = .ok (w', a)) :
    Good w w' (.sendmsg j m) a := by
  obtain ⟨k0, hk0, rfl, hw, -⟩ := sendmsg_ok h
  have hmap : (enq w k0.id m).links.map (fun k => (k.id, k.line)) = w.links.map (fun k => (k.id, k.line)) := by
    simp only [enq, wl, List.map_map]
    rw [List.map_inj_left]
    intro y _
    simp only [Function.comp]
    split <;> rfl
  have Ie : Inv (enq w k0.id m) := I.congr rfl rfl rfl hmap (fun _ _ => rfl)
  have hlt := (I.fk k0 hk0).1
  have hask : ∀ j, asked j [.sendmsg k0.id m] = if k0.id = j then [m] else [] := fun j => rfl
  have hmem : ∀ k' ∈ (enq w k0.id m).links, ∃ k ∈ w.links, k' = if k.id == k0.id then { k with q := k.q ++ [m] } else k := by
    intro k' hk'
    obtain ⟨k, hk, e⟩ := List.mem_map.1 hk'
    exact ⟨k, hk, e.symm⟩
  -- the link with the identity is the one
  have huniq : ∀ k ∈ w.links, k.id = k0.id → k = k0 := by
    intro k hk e
    have h1 := find_id SLink.id I.nk hk
    rw [e, find_id SLink.id I.nk hk0] at h1
    exact (Option.some.inj h1).symm
  refine ⟨writeCb_inv Ie hw, ?_, ?_⟩
  · rcases writeCb_ok hw with ⟨hn, rfl, -⟩ | ⟨c, h1, h2, rfl, -⟩
    · intro l t c hc k' hk' e1 e2
      obtain ⟨k, hk, e⟩ := hmem k' hk'
      by_cases hid : k.id = k0.id
      · have := huniq k hk hid
        subst this
        simp only [beq_self_eq_true, if_true] at e
        rw [e] at e1 e2
        simp only at e1 e2
        subst e1 e2
        have hcc : (w.ts k.line k.ts).conn = some c := hc
        have hn' : (w.ts k.line k.ts).conn = none := hn
        rw [hcc] at hn'; simp at hn'
      · have hb : (k.id == k0.id) = false := by simpa using hid
        rw [hb] at e
        simp only [Bool.false_eq_true, if_false] at e
        subst e
        exact hP l t c hc k' hk e1 e2
    · refine flush_P ?_
      intro l' t' c' hlt' hc' k' hk' e1 e2
      obtain ⟨k, hk, e⟩ := hmem k' hk'
      by_cases hid : k.id = k0.id
      · have := huniq k hk hid
        subst this
        simp only [beq_self_eq_true, if_true] at e
        rw [e] at e1 e2
        exact absurd ⟨e1.symm, e2.symm⟩ hlt'
      · have hb : (k.id == k0.id) = false := by simpa using hid
        rw [hb] at e
        simp only [Bool.false_eq_true, if_false] at e
        subst e
        exact hP l' t' c' hc' k' hk e1 e2
  · rcases writeCb_ok hw with ⟨hn, rfl, rfl⟩ | ⟨c, h1, h2, rfl, rfl⟩
    · refine ⟨Nat.le_refl _, ?_, ?_, fun c j m h => by simp at h⟩
      · intro j hj
        rw [hask, if_neg (by omega)]
        exact ⟨rfl, rfl⟩
      · intro k' hk'
        obtain ⟨k, hk, e⟩ := hmem k' hk'
        refine .inr ⟨k, hk, ?_⟩
        by_cases hid : k.id = k0.id
        · rw [if_pos (by simpa using hid)] at e
          subst e
          refine ⟨rfl, rfl, rfl, fun _ => ?_⟩
          rw [hask, if_pos hid.symm]
          simp [sentOn]
        · rw [if_neg (by simpa using hid)] at e
          subst e
          refine ⟨rfl, rfl, rfl, fun _ => ?_⟩
          rw [hask, if_neg (fun e => hid e.symm)]
          simp [sentOn]
    · refine ⟨Nat.le_refl _, ?_, ?_, fun c' j m h => flush_ch h1 h⟩
      · intro j hj
        rw [hask, if_neg (by omega)]
        refine ⟨rfl, sentOn_burst_none ?_⟩
        intro k hk e
        have := (Ie.fk k hk).1
        have hnx : (enq w k0.id m).next = w.next := rfl
        omega
      · intro k' hk'
        obtain ⟨k1, hk1, e1⟩ := flush_mem hk'
        obtain ⟨k, hk, e⟩ := hmem k1 hk1
        refine .inr ⟨k, hk, ?_⟩
        have hs : ∀ (_ : known k1 = true), sentOn k1.id (burst k0.line k0.ts c (enq w k0.id m).links) = if k1.line = k0.line ∧ k1.ts = k0.ts then k1.q.map (framed k1) else [] :=
          fun hy => sentOn_burst Ie.nk hk1 hy
        by_cases hid : k.id = k0.id
        · have := huniq k hk hid
          subst this
          simp only [beq_self_eq_true, if_true] at e
          subst e
          simp only [and_self, if_true] at e1 hs
          subst e1
          refine ⟨rfl, rfl, rfl, fun hy => ?_⟩
          rw [hask, if_pos rfl, hs hy]
          simp only [List.map_append, List.map_nil, List.append_nil, List.map_cons]
          rfl
        · rw [if_neg (by simpa using hid)] at e
          subst e
          by_cases hat : k1.line = k0.line ∧ k1.ts = k0.ts
          · rw [if_pos hat] at e1 hs
            subst e1
            refine ⟨rfl, rfl, rfl, fun hy => ?_⟩
            rw [hask, if_neg (fun e => hid e.symm), hs hy]
          · rw [if_neg hat] at e1 hs
            subst e1
            refine ⟨rfl, rfl, rfl, fun hy => ?_⟩
            rw [hask, if_neg (fun e => hid e.symm), hs hy]; simp

/-- the timer of a FSM never expires without an access to a freed object -/
theorem kaTimeout_err {w : W} (I : Inv w) {l t c : Nat} (h : (w.ts l t).ka = some c) : ∃ e, kaTimeout w l t = .error e := by
  simp only [kaTimeout, h, bind, Except.bind]
  cases hg : getConn w c with
  | error e => exact ⟨_, rfl⟩
  | ok x =>
    simp only
    cases hd : destroy w c with
    | error e => exact ⟨_, rfl⟩
    | ok r =>
      simp only
      obtain ⟨w1, a1⟩ := r
      obtain ⟨y, hy, rfl, -, rfl⟩ := destroy_ok I hd
      have : getConn (without w y) y.id = .error .badptr := by
        have hf : (without w y).conns.find? (fun x => x.id == y.id) = none := by
          rw [List.find?_eq_none]
          intro z hz
          have := (List.mem_filter.1 hz).2
          simpa using this
        simp only [getConn, hf]
      rw [this]
      exact ⟨_, rfl⟩

theorem kaTimeout_good {w w' : W} (I : Inv w) (hP : P w) {l t : Nat} {a : List Act} (h : kaTimeout w l t = .ok (w', a)) :
    Good w w' (.kaTimeout l t) a := by
  cases hk : (w.ts l t).ka with
  | none =>
    simp only [kaTimeout, hk] at h
    cases h
    exact nop_good I hP (fun _ => rfl) (fun _ => rfl)
  | some c =>
    obtain ⟨e, he⟩ := kaTimeout_err I hk
    rw [he] at h; simp at h

theorem step_good {w w' : W} (I : Inv w) (hP : P w) {op : Op} {a : List Act} (h : step w op = .ok (w', a)) : Good w w' op a := by
  cases op with
  | omlAccept ok => exact omlAccept_good I hP h
  | rslAccept ok => exact rslAccept_good I hP h
  | idResp c trx up => exact idResp_good I hP h
  | closed c => exact destroy_good I hP (fun _ => rfl) h
  | rx c p m => exact rx_good I hP h
  | config l t => exact config_good I hP h
  | linkCreate l t ty tei sapi => exact linkCreate_good I hP h
  | linkDestroy k => exact linkDestroy_good I hP h
  | sendmsg k m => exact sendmsg_good I hP h
  | kaTimeout l t => exact kaTimeout_good I hP h

/-- all that was asked for has been sent or is queued -/
structure Sent (w : W) (ops : List Op) (acts : List Act) : Prop where
  fr : ∀ k, w.next ≤ k → asked k ops = [] ∧ sentOn k acts = []
  k : ∀ k ∈ w.links, known k = true → (asked k.id ops).map (framed k) = sentOn k.id acts ++ k.q.map (framed k)

theorem Sent.step {w w' : W} {ops : List Op} {acts : List Act} {op : Op} {a : List Act} (S : Sent w ops acts) (T : Tx w w' op a) :
    Sent w' (ops ++ [op]) (acts ++ a) := by
  constructor
  · intro k hk
    have hk' : w.next ≤ k := Nat.le_trans T.nx hk
    rw [asked_append, sentOn_append, (S.fr k hk').1, (S.fr k hk').2, (T.fr k hk').1, (T.fr k hk').2]
    exact ⟨rfl, rfl⟩
  · intro k' hk' hy
    rw [asked_append, sentOn_append]
    rcases T.k k' hk' with ⟨hq, hf⟩ | ⟨k, hk, e1, e2, e3, e4⟩
    · rw [(S.fr _ hf).1, (S.fr _ hf).2, (T.fr _ hf).1, (T.fr _ hf).2, hq]; rfl
    · have hyk : known k = true := by
        rw [known_iff, e2]; exact (known_iff k').1 hy
      have hfr : framed k' = framed k := by funext m; simp only [framed, e3]
      have h1 := S.k k hk hyk
      have h2 := e4 hyk
      rw [← e1, hfr, List.map_append, h1, List.append_assoc, h2, List.append_assoc]

theorem run_good {ops : List Op} : ∀ {w w' : W} {ops0 : List Op} {acts0 acts : List Act}, Inv w → P w → Sent w ops0 acts0 →
    run w ops = .ok (w', acts) → Inv w' ∧ P w' ∧ Sent w' (ops0 ++ ops) (acts0 ++ acts) := by
  induction ops with
  | nil =>
    intro w w' ops0 acts0 acts I hP S h
    cases h
    simpa using ⟨I, hP, S⟩
  | cons op ops ih =>
    intro w w' ops0 acts0 acts I hP S h
    simp only [run, bind, Except.bind] at h
    split at h
    · simp at h
    · rename_i r hr
      obtain ⟨w1, a1⟩ := r
      simp only at h
      split at h
      · simp at h
      · rename_i r2 hr2
        obtain ⟨w2, a2⟩ := r2
        cases h
        have G := step_good I hP hr
        have := ih G.I G.P (S.step G.tx) hr2
        simpa [List.append_assoc] using this

theorem init_P (kap pcap : Bool) : P (init kap pcap) := fun l t c h => by simp [init, noTs] at h

theorem init_sent (kap pcap : Bool) : Sent (init kap pcap) [] [] := ⟨fun _ _ => ⟨rfl, rfl⟩, fun k hk => by simp [init] at hk⟩

theorem reach {kap pcap : Bool} {ops : List Op} {w : W} {acts : List Act} (h : run (init kap pcap) ops = .ok (w, acts)) :
    Inv w ∧ P w ∧ Sent w ops acts := by
  simpa using run_good (init_inv kap pcap) (init_P kap pcap) (init_sent kap pcap) h

end Verif.IpAccess.Bsc
