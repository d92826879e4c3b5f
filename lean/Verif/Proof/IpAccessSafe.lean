import Verif.Proof.IpAccessStep
/-!
# The ip.access BSC with well-behaved peers
-/
namespace Verif.IpAccess.Bsc

structure Tid (w : W) : Prop where
  T : Tidy w
  S : ∀ k ∈ w.links, (w.ts k.line k.ts).sign = true
  Y : ∀ k ∈ w.links, known k = true

theorem Tid.kaOk {w : W} (I : Inv w) (T : Tid w) (l t : Nat) : kaOk w l t := by
  intro c h
  obtain ⟨x, hx, e, -, -⟩ := I.T l t c (T.T.ka l t c h)
  exact ⟨x, hx, e⟩

theorem mem_uniq {w : W} (I : Inv w) {x y : Conn} (hx : x ∈ w.conns) (hy : y ∈ w.conns) (h : x.id = y.id) : x = y := by
  have := getConn_mem I hx
  rw [h, getConn_mem I hy] at this
  exact (Except.ok.inj this).symm

theorem opened_tid {w : W} (I : Inv w) (T : Tid w) {t : Nat} {x : Nat → Ts} (hx : ∀ b, (x b).conn = if b = t then some (w.next + 1) else none)
    (hk : ∀ b, (x b).ka = none) : Tid (opened w t x) := by
  have hold : ∀ l s, l < w.next → (opened w t x).ts l s = w.ts l s := by
    intro l s h
    simp only [opened]
    rw [if_neg (by omega)]
  refine ⟨⟨?_, ?_⟩, ?_, T.Y⟩
  · intro y hy
    rcases List.mem_append.1 hy with h | h
    · rw [hold _ _ (I.fc y h).2]; exact T.T.back y h
    · simp only [List.mem_singleton] at h
      subst h
      have := hx t
      rw [if_pos rfl] at this
      simpa [opened] using this
  · intro l s c h
    by_cases hl : l = w.next
    · have : ((opened w t x).ts l s).ka = none := by simpa [opened, hl] using hk s
      rw [this] at h; simp at h
    · have e : (opened w t x).ts l s = w.ts l s := by simp [opened, hl]
      rw [e] at h ⊢
      exact T.T.ka l s c h
  · intro k hk
    rw [hold _ _ (I.fk k hk).2]; exact T.S k hk

theorem without_tid {w : W} (I : Inv w) (T : Tid w) {x : Conn} (hx : x ∈ w.conns) : Tid (without w x) := by
  refine ⟨⟨?_, ?_⟩, ?_, T.Y⟩
  · intro y hy
    obtain ⟨hy1, hy2⟩ := List.mem_filter.1 hy
    have hne : y.id ≠ x.id := by simpa using hy2
    have hno : ¬ (y.line = x.line ∧ y.ts = x.ts) := by
      intro h
      have h1 := T.T.back y hy1
      rw [h.1, h.2, T.T.back x hx] at h1
      exact hne (Option.some.inj h1).symm
    have : (without w x).ts y.line y.ts = w.ts y.line y.ts := by simp [without, hno]
    rw [this]; exact T.T.back y hy1
  · intro l s c h
    by_cases hlt : l = x.line ∧ s = x.ts
    · have : ((without w x).ts l s).ka = none := by simp [without, hlt]
      rw [this] at h; simp at h
    · have e : (without w x).ts l s = w.ts l s := by simp [without, hlt]
      rw [e] at h ⊢
      exact T.T.ka l s c h
  · intro k hk
    have := T.S k hk
    simp only [without]
    split
    · rename_i h; rw [h.1, h.2] at this; exact this
    · exact this

theorem destroy_safe {w : W} (I : Inv w) (T : Tid w) {x : Conn} (hx : x ∈ w.conns) : ∃ w' a, destroy w x.id = .ok (w', a) ∧ Tid w' :=
  ⟨_, _, destroy_eq I hx (T.kaOk I _ _), without_tid I T hx⟩

/-- a FSM for the connection of the time slot -/
theorem setKa_tid {w : W} (T : Tid w) {l t : Nat} {v : Option Nat} (hv : v = none ∨ v = (w.ts l t).conn) :
    Tid (setTs w l t { w.ts l t with ka := v }) := by
  have hc : ∀ a b, ((setTs w l t { w.ts l t with ka := v }).ts a b).conn = (w.ts a b).conn := fun a b => setTs_conn (by rfl) a b
  refine ⟨⟨?_, ?_⟩, ?_, T.Y⟩
  · intro y hy; rw [hc]; exact T.T.back y hy
  · intro a b c h
    rw [hc]
    simp only [setTs] at h
    split at h
    · rename_i hab
      simp only at h
      rcases hv with hv | hv
      · rw [hv] at h; simp at h
      · rw [hv] at h; rw [hab.1, hab.2]; exact h
    · exact T.T.ka a b c h
  · intro k hk
    have := T.S k hk
    simp only [setTs]
    split
    · rename_i h; rw [h.1, h.2] at this; exact this
    · exact this

theorem kaAlloc_eq {w : W} (I : Inv w) (T : Tid w) (l t c : Nat) :
    kaAlloc w l t c = .ok (setTs w l t { w.ts l t with ka := if w.kap then some c else none }, if w.kap then [.ping c] else []) := by
  cases h : kaAlloc w l t c with
  | error e =>
    simp only [kaAlloc, kaCleanup_eq I.nc (T.kaOk I l t), bind, Except.bind] at h
    split at h <;> simp at h
  | ok r =>
    obtain ⟨w1, a1⟩ := r
    obtain ⟨-, e1, e2⟩ := kaAlloc_ok I.nc h
    rw [e1, e2]

theorem flush_tid {w : W} (T : Tid w) (l t : Nat) : Tid ⟨w.lines, w.ts, w.conns, flush l t w.links, w.next, w.kap, w.pcap⟩ := by
  refine ⟨⟨T.T.back, T.T.ka⟩, ?_, ?_⟩
  · intro k' hk'
    obtain ⟨k, hk, e⟩ := flush_mem hk'
    have := T.S k hk
    split at e <;> (subst e; exact this)
  · intro k' hk'
    obtain ⟨k, hk, e⟩ := flush_mem hk'
    have := T.Y k hk
    split at e <;> (subst e; exact this)

theorem moved_tid {w : W} (I : Inv w) (T : Tid w) {x : Conn} (hx : x ∈ w.conns) {nl nt trx : Nat} (hne : nl ≠ x.line)
    (hfree : (w.ts nl nt).conn = none) (hka : (w.ts x.line x.ts).ka = none) : Tid (moved w x nl nt trx) := by
  have hkn : (w.ts nl nt).ka = none := by
    cases h : (w.ts nl nt).ka with
    | none => rfl
    | some c => have := T.T.ka nl nt c h; rw [hfree] at this; simp at this
  refine ⟨⟨?_, ?_⟩, ?_, T.Y⟩
  · intro y' hy'
    obtain ⟨y, hy, e⟩ := List.mem_map.1 hy'
    by_cases hid : y.id = x.id
    · rw [if_pos (by simpa using hid)] at e
      subst e
      simp [moved, hne]
    · rw [if_neg (by simpa using hid)] at e
      subst e
      have hb := T.T.back y hy
      have h1 : ¬ (y.line = x.line ∧ y.ts = x.ts) := by
        intro h
        rw [h.1, h.2, T.T.back x hx] at hb
        exact hid (Option.some.inj hb).symm
      have h2 : ¬ (y.line = nl ∧ y.ts = nt) := by
        intro h
        rw [h.1, h.2, hfree] at hb
        simp at hb
      have : (moved w x nl nt trx).ts y.line y.ts = w.ts y.line y.ts := by simp [moved, h1, h2]
      rw [this]; exact hb
  · intro l t c h
    by_cases h1 : l = x.line ∧ t = x.ts
    · have : ((moved w x nl nt trx).ts l t).ka = none := by simp [moved, h1, hka]
      rw [this] at h; simp at h
    · by_cases h2 : l = nl ∧ t = nt
      · have : ((moved w x nl nt trx).ts l t).ka = none := by simp [moved, h2, hne, hkn]
        rw [this] at h; simp at h
      · have e : (moved w x nl nt trx).ts l t = w.ts l t := by simp [moved, h1, h2]
        rw [e] at h ⊢
        exact T.T.ka l t c h
  · intro k hk
    have := T.S k hk
    simp only [moved]
    split
    · rename_i h; rw [h.1, h.2] at this; exact this
    · split
      · rename_i h; rw [h.1, h.2] at this; exact this
      · exact this

theorem attach_safe {w : W} (I : Inv w) (T : Tid w) {x : Conn} (hx : x ∈ w.conns) {nl trx : Nat} (hne : nl ≠ x.line) (hl : 0 < linked w nl)
    (htrx : trx < 31) (hfree : (w.ts nl (1 + trx)).conn = none) (hsign : (w.ts nl (1 + trx)).sign = true) (hka : (w.ts x.line x.ts).ka = none) :
    ∃ w' a, attach w x.id x.line x.ts nl trx = .ok (w', a) ∧ Tid w' := by
  have hnt : rslTs trx = some (1 + trx) := if_pos (show 1 + trx < 32 by omega)
  have hnl : 0 < attached w nl + linked w nl := by omega
  have Im := moved_inv (nt := 1 + trx) (trx := trx) I hx hne hnl
  have Tm := moved_tid (trx := trx) I T hx hne hfree hka
  rw [attach_eq I hx hne hnl hnt (T.T.back x hx), kaAlloc_eq Im Tm]
  simp only [Except.bind]
  have hc : ((moved w x nl (1 + trx) trx).ts nl (1 + trx)).conn = some x.id := by simp [moved, hne]
  have hs : ((moved w x nl (1 + trx) trx).ts nl (1 + trx)).sign = true := by
    simp only [moved]
    rw [if_neg (fun h => hne h.1)]
    simpa using hsign
  have T2 := setKa_tid (l := nl) (t := 1 + trx) (v := if (moved w x nl (1 + trx) trx).kap then some x.id else none) Tm (by
    cases (moved w x nl (1 + trx) trx).kap
    · exact .inl rfl
    · exact .inr hc.symm)
  rw [writeCb_eq (c := x.id)]
  rotate_left
  · rw [setTs_conn (by rfl)]; exact hc
  · simp only [setTs, and_self, if_true]; exact hs
  exact ⟨_, _, rfl, flush_tid T2 _ _⟩

theorem getLine_ok {w : W} {l : Nat} (h : w.lines l ≠ none) : ∃ v, getLine w l = .ok v := by
  cases hl : w.lines l with
  | none => exact absurd hl h
  | some v => exact ⟨v, by simp only [getLine, hl]⟩

theorem conn_line {w : W} (I : Inv w) {x : Conn} (hx : x ∈ w.conns) : w.lines x.line ≠ none := by
  have := attached_pos hx
  rw [lines_some I (by omega)]; simp

theorem link_line {w : W} (I : Inv w) {x : SLink} (hx : x ∈ w.links) : w.lines x.line ≠ none := by
  have := linked_pos hx
  rw [lines_some I (by omega)]; simp

theorem getLink_mem {w : W} (I : Inv w) {x : SLink} (hx : x ∈ w.links) : getLink w x.id = .ok x := by
  simp only [getLink, find_id SLink.id I.nk hx]

theorem idResp_safe {w : W} (I : Inv w) (T : Tid w) {c trx : Nat} {up : Option Nat} (hc : Calm w (.idResp c trx up)) :
    ∃ w' a, idResp w c trx up = .ok (w', a) ∧ Tid w' := by
  obtain ⟨x, hx, rfl, hup⟩ := hc
  obtain ⟨v, hv⟩ := getLine_ok (conn_line I hx)
  simp only [idResp, bind, Except.bind, getConn_mem I hx, hv]
  by_cases h1 : (w.ts x.line x.ts).priv = SIGN_OML
  · rw [if_pos h1]
    cases up with
    | none => exact destroy_safe I T hx
    | some nl =>
      refine ⟨_, _, kaAlloc_eq I T _ _ _, setKa_tid T ?_⟩
      cases w.kap
      · exact .inl rfl
      · exact .inr (T.T.back x hx).symm
  · rw [if_neg h1]
    by_cases h2 : (w.ts x.line x.ts).priv = SIGN_RSL
    · rw [if_pos h2]
      cases up with
      | none => exact destroy_safe I T hx
      | some nl =>
        simp only
        by_cases hl : nl = x.line
        · rw [if_pos hl]; exact ⟨_, _, rfl, T⟩
        · rw [if_neg hl]
          obtain ⟨hlk, h⟩ := hup nl rfl
          obtain ⟨a1, a2, a3, a4⟩ := h h2 hl
          exact attach_safe I T hx hl hlk a1 a2 a3 a4
    · rw [if_neg h2]; exact ⟨_, _, rfl, T⟩

theorem rx_safe {w : W} (I : Inv w) (T : Tid w) {c : Nat} (p : Byte) (m : List Byte) (hc : ∃ x ∈ w.conns, x.id = c) :
    ∃ w' a, rx w c p m = .ok (w', a) ∧ Tid w' := by
  obtain ⟨x, hx, rfl⟩ := hc
  obtain ⟨v, hv⟩ := getLine_ok (conn_line I hx)
  simp only [rx, bind, Except.bind, getConn_mem I hx, hv]
  split
  · split
    · exact destroy_safe I T hx
    · exact ⟨_, _, rfl, T⟩
  · exact destroy_safe I T hx

theorem config_safe {w : W} (T : Tid w) {l : Nat} (t : Nat) (hc : w.lines l ≠ none) : ∃ w' a, config w l t = .ok (w', a) ∧ Tid w' := by
  obtain ⟨v, hv⟩ := getLine_ok hc
  simp only [config, bind, Except.bind, hv]
  refine ⟨_, _, rfl, ⟨?_, ?_⟩, ?_, T.Y⟩
  · intro y hy; rw [setTs_conn (by rfl)]; exact T.T.back y hy
  · intro a b c h
    rw [setTs_conn (by rfl)]
    simp only [setTs] at h
    split at h
    · rename_i hab; rw [hab.1, hab.2]; exact T.T.ka l t c h
    · exact T.T.ka a b c h
  · intro k hk
    have := T.S k hk
    simp only [setTs]
    split
    · rfl
    · exact this

theorem linkCreate_safe {w : W} (I : Inv w) (T : Tid w) {l : Nat} (t : Nat) {ty : Nat} (tei sapi : Byte) (hl : w.lines l ≠ none)
    (hty : ty = 1 ∨ ty = 2 ∨ ty = 3) : ∃ w' a, linkCreate w l t ty tei sapi = .ok (w', a) ∧ Tid w' := by
  obtain ⟨v, hv⟩ := getLine_ok hl
  simp only [linkCreate, bind, Except.bind, hv]
  split
  · rename_i hs
    cases hw : w.lines l with
    | none => exact absurd hw hl
    | some q =>
      have hpos := lines_ne I hw
      rw [use_eq (lines_some I hpos)]
      have hz : ¬ ((attached w l : Int) + 0 + ((linked w l : Int) + 1) = 0) := by omega
      rw [if_neg hz]
      refine ⟨_, _, rfl, ⟨T.T.back, T.T.ka⟩, ?_, ?_⟩
      · intro k hk
        rcases List.mem_append.1 hk with h | h
        · exact T.S k h
        · simp only [List.mem_singleton] at h
          subst h; exact hs
      · intro k hk
        rcases List.mem_append.1 hk with h | h
        · exact T.Y k h
        · simp only [List.mem_singleton] at h
          subst h; exact (known_iff _).2 hty
  · exact ⟨_, _, rfl, T⟩

theorem unlink_tid {w : W} (T : Tid w) (k : SLink) : Tid (unlink w k) :=
  ⟨⟨T.T.back, T.T.ka⟩, fun y hy => T.S y (List.mem_filter.1 hy).1, fun y hy => T.Y y (List.mem_filter.1 hy).1⟩

theorem linkDestroy_safe {w : W} (I : Inv w) (T : Tid w) {k : Nat} (hk : ∃ x ∈ w.links, x.id = k) :
    ∃ w' a, linkDestroy w k = .ok (w', a) ∧ Tid w' := by
  obtain ⟨x, hx, rfl⟩ := hk
  have hex : ∃ r, linkDestroy w x.id = .ok r := by
    obtain ⟨v, hv⟩ := getLine_ok (link_line I hx)
    have hv' : getLine { w with links := w.links.filter (fun y => !(y.id == x.id)) } x.line = .ok v := hv
    simp only [linkDestroy, bind, Except.bind, getLink_mem I hx, hv']
    have hstop : kaStop { w with links := w.links.filter (fun y => !(y.id == x.id)) } x.line x.ts = .ok () := by
      simp only [kaStop, bind, Except.bind]
      split
      · rfl
      · rename_i c hc
        obtain ⟨y, hy, e⟩ := T.kaOk I _ _ c hc
        have : getConn { w with links := w.links.filter (fun y => !(y.id == x.id)) } c = .ok y := e ▸ getConn_mem I hy
        rw [this]
    simp only [ipaClose, bind, Except.bind, hstop]
    have hp := linked_pos hx
    cases hc : (w.ts x.line x.ts).conn with
    | none =>
      simp only
      have hl : (wl w (w.links.filter (fun y => !(y.id == x.id)))).lines x.line = tally (attached w x.line) (linked w x.line) := I.L x.line
      have := use_map hl hp
      simp only [wl] at this
      rw [this]
      exact ⟨_, rfl⟩
    | some c =>
      simp only
      obtain ⟨y, hy, e1, e2, e3⟩ := I.T _ _ _ hc
      subst e1
      have e := destroy_wl w (w.links.filter (fun y => !(y.id == x.id))) y.id
      simp only [wl] at e
      rw [e, destroy_eq I hy (T.kaOk I _ _)]
      simp only [Except.map]
      have Iw := without_inv I hy
      have hl : (wl (without w y) (w.links.filter (fun y => !(y.id == x.id)))).lines x.line
          = tally (attached (without w y) x.line) (linked (without w y) x.line) := Iw.L x.line
      have := use_map hl hp
      simp only [wl] at this
      rw [this]
      exact ⟨_, rfl⟩
  obtain ⟨⟨w', a⟩, h⟩ := hex
  refine ⟨w', a, h, ?_⟩
  obtain ⟨k, hk, -, -, hq, ⟨-, rfl⟩ | ⟨y, hy, -, -, -, rfl⟩⟩ := linkDestroy_ok I h
  · exact unlink_tid T k
  · exact unlink_tid (without_tid I T hy) k

theorem enq_tid {w : W} (T : Tid w) (j : Nat) (m : List Byte) : Tid (enq w j m) := by
  refine ⟨⟨T.T.back, T.T.ka⟩, ?_, ?_⟩
  · intro k' hk'
    obtain ⟨k, hk, e⟩ := List.mem_map.1 hk'
    have := T.S k hk
    split at e <;> (subst e; exact this)
  · intro k' hk'
    obtain ⟨k, hk, e⟩ := List.mem_map.1 hk'
    have := T.Y k hk
    split at e <;> (subst e; exact this)

theorem sendmsg_safe {w : W} (I : Inv w) (T : Tid w) {k : Nat} (m : List Byte) (hk : ∃ x ∈ w.links, x.id = k) :
    ∃ w' a, sendmsg w k m = .ok (w', a) ∧ Tid w' := by
  obtain ⟨x, hx, rfl⟩ := hk
  obtain ⟨v, hv⟩ := getLine_ok (link_line I hx)
  have hv' : getLine (enq w x.id m) x.line = .ok v := hv
  have hno : ¬ ((enq w x.id m).pcap = true ∧ ((enq w x.id m).ts x.line x.ts).conn ≠ none ∧ known x = false) := by
    rw [T.Y x hx]; simp
  have T2 := enq_tid T x.id m
  simp only [enq, wl] at hv' hno T2
  simp only [sendmsg, bind, Except.bind, getLink_mem I hx, hv']
  cases hc : (w.ts x.line x.ts).conn with
  | none =>
    simp only [writeCb, hc]
    rw [if_neg (by simp)]
    exact ⟨_, _, rfl, T2⟩
  | some c =>
    rw [writeCb_eq (c := c)]
    rotate_left
    · exact hc
    · exact T.S x hx
    simp only
    have : ¬ (w.pcap = true ∧ some c ≠ none ∧ known x = false) := by rw [T.Y x hx]; simp
    rw [if_neg this]
    exact ⟨_, _, rfl, flush_tid T2 _ _⟩

theorem kaTimeout_safe {w : W} (T : Tid w) {l t : Nat} (h : (w.ts l t).ka = none) : ∃ w' a, kaTimeout w l t = .ok (w', a) ∧ Tid w' := by
  simp only [kaTimeout, h]
  exact ⟨_, _, rfl, T⟩

theorem accept_safe {w : W} (I : Inv w) (T : Tid w) {t : Nat} {x : Nat → Ts} (hx : ∀ b, (x b).conn = if b = t then some (w.next + 1) else none)
    (hk : ∀ b, (x b).ka = none) (ok : Bool) :
    ∃ w' a, (if ok then .ok (opened w t x, []) else destroy (opened w t x) (w.next + 1)) = (.ok (w', a) : M (W × List Act)) ∧ Tid w' := by
  have I1 := opened_inv I hx
  have T1 := opened_tid I T hx hk
  cases ok with
  | true => exact ⟨_, _, rfl, T1⟩
  | false =>
    have hm : (⟨w.next + 1, w.next, t⟩ : Conn) ∈ (opened w t x).conns := by simp [opened]
    exact destroy_safe I1 T1 hm

theorem step_safe {w : W} (I : Inv w) (T : Tid w) {op : Op} (hc : Calm w op) : ∃ w' a, step w op = .ok (w', a) ∧ Tid w' := by
  cases op with
  | omlAccept ok =>
    refine accept_safe I T (t := omlTs) (x := fun b => if b = omlTs then ⟨some (w.next + 1), SIGN_OML, none, true⟩ else noTs) ?_ ?_ ok
    · intro b
      by_cases hb : b = omlTs <;> simp [hb, noTs]
    · intro b
      by_cases hb : b = omlTs <;> simp [hb, noTs]
  | rslAccept ok =>
    refine accept_safe I T (t := 1) (x := fun b => if b = 1 then ⟨some (w.next + 1), SIGN_RSL, none, false⟩ else if b = omlTs then ⟨none, 0, none, true⟩ else noTs) ?_ ?_ ok
    · intro b
      by_cases hb : b = 1
      · simp [hb]
      · simp only [hb, if_false]
        split <;> rfl
    · intro b
      by_cases hb : b = 1
      · simp [hb]
      · simp only [hb, if_false]
        split <;> rfl
  | idResp c trx up => exact idResp_safe I T hc
  | closed c =>
    obtain ⟨x, hx, rfl⟩ := hc
    exact destroy_safe I T hx
  | rx c p m => exact rx_safe I T p m hc
  | config l t => exact config_safe T t hc
  | linkCreate l t ty tei sapi => exact linkCreate_safe I T t tei sapi hc.1 hc.2
  | linkDestroy k => exact linkDestroy_safe I T hc
  | sendmsg k m => exact sendmsg_safe I T m hc
  | kaTimeout l t => exact kaTimeout_safe T hc

theorem run_safe {ops : List Op} : ∀ {w : W}, Inv w → P w → Tid w → CalmRun w ops → ∃ w' a, run w ops = .ok (w', a) ∧ Tid w' := by
  induction ops with
  | nil => intro w I hP T _; exact ⟨_, _, rfl, T⟩
  | cons op ops ih =>
    intro w I hP T hc
    obtain ⟨w1, a1, h1, T1⟩ := step_safe I T hc.1
    have G := step_good I hP h1
    obtain ⟨w2, a2, h2, T2⟩ := ih G.I G.P T1 (hc.2 w1 a1 h1)
    refine ⟨w2, a1 ++ a2, ?_, T2⟩
    simp only [run, bind, Except.bind, h1, h2]

theorem init_tid (kap pcap : Bool) : Tid (init kap pcap) := by
  refine ⟨⟨?_, ?_⟩, ?_, ?_⟩ <;> simp [init, noTs]

end Verif.IpAccess.Bsc
