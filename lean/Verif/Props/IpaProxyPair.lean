import Verif.Proof.IpaProxyPair
/-!
# C169: a connection to the proxy and its connection to the destination
-/
namespace Verif.IpaProxy.Pair
open Verif.Ipa (Msg)

structure PInv (p : Pair) : Prop where
  sf : p.src.frames = []
  df : p.dst.frames = []
  up : p.dst.updown = false
  rd : p.dst.readCb = true
  cb : p.src.cb = true
  nc : p.src.closedCb = false
  dg : p.dst.gone = false
  dr : p.dst.reg = p.dst.fd.isSome
  sr : p.src.reg = p.src.fd.isSome
  sg : p.src.gone = p.src.fd.isNone

theorem toDst_append (a b : List Act) : toDst (a ++ b) = toDst a ++ toDst b := List.filterMap_append
theorem toSrc_append (a b : List Act) : toSrc (a ++ b) = toSrc a ++ toSrc b := List.filterMap_append
theorem fromDst_append (a b : List Act) : fromDst (a ++ b) = fromDst a ++ fromDst b := List.filterMap_append
theorem fromSrc_append (a b : List Act) : fromSrc (a ++ b) = fromSrc a ++ fromSrc b := List.filterMap_append

theorem toDst_dst (a : List Ipa.Cli.Act) : toDst (a.map .dst) = Ipa.Cli.handed a := by
  unfold toDst Ipa.Cli.handed
  rw [List.filterMap_map]
  congr 1
  funext x
  cases x <;> rfl
theorem toDst_src (a : List Ipa.Srv.Act) : toDst (a.map .src) = [] := by
  unfold toDst
  rw [List.filterMap_map, List.filterMap_eq_nil_iff]
  intro x _
  rfl
theorem toSrc_src (a : List Ipa.Srv.Act) : toSrc (a.map .src) = Ipa.Srv.handed a := by
  unfold toSrc Ipa.Srv.handed
  rw [List.filterMap_map]
  congr 1
  funext x
  cases x <;> rfl
theorem toSrc_dst (a : List Ipa.Cli.Act) : toSrc (a.map .dst) = [] := by
  unfold toSrc
  rw [List.filterMap_map, List.filterMap_eq_nil_iff]
  intro x _
  rfl
theorem fromSrc_src (a : List Ipa.Srv.Act) : fromSrc (a.map .src) = sgot a := by
  unfold fromSrc sgot
  rw [List.filterMap_map]
  congr 1
  funext x
  cases x <;> rfl
theorem fromSrc_dst (a : List Ipa.Cli.Act) : fromSrc (a.map .dst) = [] := by
  unfold fromSrc
  rw [List.filterMap_map, List.filterMap_eq_nil_iff]
  intro x _
  rfl
theorem fromDst_dst (a : List Ipa.Cli.Act) : fromDst (a.map .dst) = cgot a := by
  unfold fromDst cgot
  rw [List.filterMap_map]
  congr 1
  funext x
  cases x <;> rfl
theorem fromDst_src (a : List Ipa.Srv.Act) : fromDst (a.map .src) = [] := by
  unfold fromDst
  rw [List.filterMap_map, List.filterMap_eq_nil_iff]
  intro x _
  rfl

/-- what is kept and what is forwarded by one operation -/
structure Good (p p' : Pair) (a : List Act) : Prop where
  inv : PInv p'
  tab : p'.tab = p.tab
  down : toDst a ++ p'.dst.queue = p.dst.queue ++ (fromSrc a).filterMap (forward p.tab.smap p.tab.did)
  up : toSrc a ++ p'.src.queue = p.src.queue ++ (fromDst a).filterMap (forward p.tab.dmap p.tab.sid)

theorem proto_ok {m : Msg} {b : Byte} (h : proto m = .ok b) : ∃ x y rest, m.data = x :: y :: b :: rest := by
  obtain ⟨i, d⟩ := m
  match d, h with
  | x :: y :: z :: rest, h => cases h; exact ⟨x, y, rest, rfl⟩

theorem forward_some {m : Msg} {b : Byte} (h : proto m = .ok b) {map : Byte → Bool} (hm : map b = true) (id : Byte → Byte) :
    forward map id m = some (setProto m (id b)) := by
  obtain ⟨x, y, rest, hd⟩ := proto_ok h
  simp only [forward, hd, hm, if_true, setProto, List.set_cons_succ, List.set_cons_zero]

theorem forward_none {m : Msg} {b : Byte} (h : proto m = .ok b) {map : Byte → Bool} (hm : map b = false) (id : Byte → Byte) :
    forward map id m = none := by
  obtain ⟨x, y, rest, hd⟩ := proto_ok h
  simp [forward, hd, hm]

theorem src_good {p p' : Pair} (hi : PInv p) {rd wr : Bool} {rcv : Ipa.Srv.Rcv} {ok : Bool} {a : List Act} (h : srcEv p rd wr rcv ok = .ok (p', a)) :
    Good p p' a := by
  unfold srcEv at h
  cases hf : Ipa.Srv.fdCb p.src rd wr rcv ok with
  | error e => rw [hf] at h; cases h
  | ok x =>
    obtain ⟨c, b⟩ := x
    rw [hf] at h
    simp only [bind, Except.bind] at h
    rcases srv_fdCb hi.nc hf with ⟨m, rfl, rfl, _, _, hg⟩ | ⟨h1, h2, h3, h4⟩
    · simp only [srcMsg, srcDeliver, srcCb] at h
      cases hp : proto m with
      | error e => rw [hp] at h; cases h
      | ok b =>
        rw [hp] at h
        simp only [bind, Except.bind] at h
        cases hm : p.tab.smap b with
        | true =>
          rw [hm, if_pos rfl] at h
          simp only [Ipa.Cli.send, Ipa.Cli.use, hi.dg, Bool.false_eq_true, if_false, bind, Except.bind, Ipa.Srv.cbReturn, hi.sf] at h
          cases hw : Ipa.Srv.writePart { p.src with frames := [] } 0 wr ok with
          | error e => rw [hw] at h; cases h
          | ok y =>
            obtain ⟨s, z⟩ := y
            rw [hw] at h
            cases h
            obtain ⟨w1, w2, w3⟩ := srv_writePart hw
            refine ⟨⟨w3.frames, hi.df, hi.up, hi.rd, w3.cb.trans hi.cb, w3.closedCb.trans hi.nc, rfl, hi.dr, w3.reg hi.sr, w3.gone hi.sg⟩, rfl, ?_, ?_⟩
            · simp only [toDst_append, fromSrc_append, toDst_src, fromSrc_src, w2, List.map_nil, List.append_nil, List.nil_append]
              simp only [sgot, List.filterMap_cons, List.filterMap_nil, forward_some hp hm]
            · simp only [toSrc_append, fromDst_append, toSrc_src, fromDst_src, List.map_nil, List.append_nil, List.nil_append]
              simp only [Ipa.Srv.handed, List.filterMap_cons, List.filterMap_nil, List.nil_append, List.append_nil]
              exact w1
        | false =>
          rw [hm] at h
          simp only [Bool.false_eq_true, if_false, Ipa.Srv.cbReturn, hi.sf] at h
          cases hw : Ipa.Srv.writePart { p.src with frames := [] } 0 wr ok with
          | error e => rw [hw] at h; cases h
          | ok y =>
            obtain ⟨s, z⟩ := y
            rw [hw] at h
            cases h
            obtain ⟨w1, w2, w3⟩ := srv_writePart hw
            refine ⟨⟨w3.frames, hi.df, hi.up, hi.rd, w3.cb.trans hi.cb, w3.closedCb.trans hi.nc, hi.dg, hi.dr, w3.reg hi.sr, w3.gone hi.sg⟩, rfl, ?_, ?_⟩
            · simp only [toDst_append, fromSrc_append, toDst_src, fromSrc_src, w2]
              simp only [sgot, toDst, fromSrc, List.filterMap_cons, List.filterMap_nil, forward_none hp hm, List.append_nil, List.nil_append]
            · simp only [toSrc_append, fromDst_append, toSrc_src, fromDst_src]
              simp only [toSrc, fromDst, Ipa.Srv.handed, List.filterMap_cons, List.filterMap_nil, List.append_nil, List.nil_append]
              exact w1
    · rw [h1] at h
      cases h
      refine ⟨⟨h4.frames.trans hi.sf, hi.df, hi.up, hi.rd, h4.cb.trans hi.cb, h4.closedCb.trans hi.nc, hi.dg, hi.dr, h4.reg hi.sr, h4.gone hi.sg⟩, rfl, ?_, ?_⟩
      · simp only [toDst_src, fromSrc_src, h3, List.filterMap_nil, List.append_nil, List.nil_append]
      · simp only [toSrc_src, fromDst_src, List.filterMap_nil, List.append_nil]
        exact h2

theorem dst_good {p p' : Pair} (hi : PInv p) {rd wr err : Bool} {rcv : Ipa.Cli.Rcv} {snd : Ipa.Cli.Snd} {a : List Act}
    (h : dstEv p rd wr err rcv snd = .ok (p', a)) : Good p p' a := by
  unfold dstEv at h
  cases hf : Ipa.Cli.fdCb p.dst rd wr err rcv snd with
  | error e => rw [hf] at h; cases h
  | ok x =>
    obtain ⟨c, b⟩ := x
    rw [hf] at h
    simp only [bind, Except.bind] at h
    rcases cli_fdCb hi.up hf with ⟨m, rfl, rfl, _, _, _, hg⟩ | ⟨h1, h2, h3, h4⟩
    · simp only [dstMsg, dstDeliver, dstCb] at h
      cases hp : proto m with
      | error e => rw [hp] at h; cases h
      | ok b =>
        rw [hp] at h
        simp only [bind, Except.bind] at h
        cases hm : p.tab.dmap b with
        | true =>
          rw [hm, if_pos rfl] at h
          cases hsg : p.src.gone with
          | true => simp [Ipa.Srv.send, Ipa.Srv.use, hsg, bind, Except.bind] at h
          | false =>
            simp only [Ipa.Srv.send, Ipa.Srv.use, hsg, Bool.false_eq_true, if_false, bind, Except.bind, Ipa.Cli.cbReturn, hi.df] at h
            cases hw : Ipa.Cli.writePart { p.dst with frames := [] } 0 wr snd with
            | error e => rw [hw] at h; cases h
            | ok y =>
              obtain ⟨s, z⟩ := y
              rw [hw] at h
              cases h
              obtain ⟨w1, w2, w3⟩ := cli_writePart (c := { p.dst with frames := [] }) hi.up hw
              refine ⟨⟨hi.sf, w3.frames, w3.updown.trans hi.up, w3.readCb.trans hi.rd, hi.cb, hi.nc, w3.gone.trans hi.dg, w3.reg hi.dr, hi.sr, by
                have := hi.sg; simp only [hsg] at this ⊢; exact this⟩, rfl, ?_, ?_⟩
              · simp only [toDst_append, fromSrc_append, toDst_dst, fromSrc_dst, List.map_nil, List.append_nil, List.nil_append]
                simp only [Ipa.Cli.handed, List.filterMap_cons, List.filterMap_nil, List.nil_append, List.append_nil]
                exact w1
              · simp only [toSrc_append, fromDst_append, toSrc_dst, fromDst_dst, w2, List.map_nil, List.append_nil, List.nil_append]
                simp only [cgot, List.filterMap_cons, List.filterMap_nil, forward_some hp hm]
        | false =>
          rw [hm] at h
          simp only [Bool.false_eq_true, if_false, Ipa.Cli.cbReturn, hi.df] at h
          cases hw : Ipa.Cli.writePart { p.dst with frames := [] } 0 wr snd with
          | error e => rw [hw] at h; cases h
          | ok y =>
            obtain ⟨s, z⟩ := y
            rw [hw] at h
            cases h
            obtain ⟨w1, w2, w3⟩ := cli_writePart (c := { p.dst with frames := [] }) hi.up hw
            refine ⟨⟨hi.sf, w3.frames, w3.updown.trans hi.up, w3.readCb.trans hi.rd, hi.cb, hi.nc, w3.gone.trans hi.dg, w3.reg hi.dr, hi.sr, hi.sg⟩, rfl, ?_, ?_⟩
            · simp only [toDst_append, fromSrc_append, toDst_dst, fromSrc_dst]
              simp only [toDst, fromSrc, Ipa.Cli.handed, List.filterMap_cons, List.filterMap_nil, List.append_nil, List.nil_append]
              exact w1
            · simp only [toSrc_append, fromDst_append, toSrc_dst, fromDst_dst, w2]
              simp only [cgot, toSrc, fromDst, List.filterMap_cons, List.filterMap_nil, forward_none hp hm, List.append_nil, List.nil_append]
    · rw [h1] at h
      cases h
      refine ⟨⟨hi.sf, h4.frames.trans hi.df, h4.updown.trans hi.up, h4.readCb.trans hi.rd, hi.cb, hi.nc, h4.gone.trans hi.dg, h4.reg hi.dr, hi.sr, hi.sg⟩, rfl, ?_, ?_⟩
      · simp only [toDst_dst, fromSrc_dst, List.filterMap_nil, List.append_nil]
        exact h2
      · simp only [toSrc_dst, fromDst_dst, h3, List.filterMap_nil, List.append_nil, List.nil_append]

theorem timeout_good {p p' : Pair} (hi : PInv p) {a : List Act} (h : timeout p = .ok (p', a)) : Good p p' a := by
  unfold timeout at h
  cases hf : Ipa.Cli.step p.dst .timeout with
  | error e => rw [hf] at h; cases h
  | ok x =>
    obtain ⟨c, b⟩ := x
    rw [hf] at h
    cases h
    obtain ⟨h2, h3, h4⟩ := cli_connectFailure (c := { p.dst with timer := false }) hi.up hf
    refine ⟨⟨hi.sf, h4.frames.trans hi.df, h4.updown.trans hi.up, h4.readCb.trans hi.rd, hi.cb, hi.nc, h4.gone.trans hi.dg, h4.reg hi.dr, hi.sr, hi.sg⟩, rfl, ?_, ?_⟩
    · simp only [toDst_dst, fromSrc_dst, List.filterMap_nil, List.append_nil]
      exact h2
    · simp only [toSrc_dst, fromDst_dst, h3, List.filterMap_nil, List.append_nil, List.nil_append]

theorem step_good {p p' : Pair} (hi : PInv p) {op : Op} {a : List Act} (h : step p op = .ok (p', a)) : Good p p' a := by
  cases op with
  | src => exact src_good hi h
  | dst => exact dst_good hi h
  | timeout => exact timeout_good hi h

theorem run_good : ∀ {ops : List Op} {p p' : Pair} {a : List Act}, PInv p → run p ops = .ok (p', a) → Good p p' a := by
  intro ops
  induction ops with
  | nil => intro p p' a hi h; cases h; exact ⟨hi, rfl, by simp [toDst, fromSrc], by simp [toSrc, fromDst]⟩
  | cons op ops ih =>
    intro p p' a hi h
    rw [run] at h
    cases hs : step p op with
    | error e => rw [hs] at h; cases h
    | ok x =>
      obtain ⟨p1, b⟩ := x
      rw [hs] at h
      simp only [bind, Except.bind] at h
      cases hr : run p1 ops with
      | error e => rw [hr] at h; cases h
      | ok y =>
        obtain ⟨p2, b2⟩ := y
        rw [hr] at h
        cases h
        have g := step_good hi hs
        have g2 := ih g.inv hr
        refine ⟨g2.inv, g2.tab.trans g.tab, ?_, ?_⟩
        · rw [toDst_append, fromSrc_append, List.filterMap_append, List.append_assoc, g2.down, ← List.append_assoc, g.down, g.tab, List.append_assoc]
        · rw [toSrc_append, fromDst_append, List.filterMap_append, List.append_assoc, g2.up, ← List.append_assoc, g.up, g.tab, List.append_assoc]

theorem accept_inv {tab : Tab} {fd : Nat} {sock : Except Int Nat} {regOk : Bool} {p : Pair} {a : List Act}
    (h : accept tab fd true sock regOk = .ok (some p, 0, a)) :
    PInv p ∧ p.tab = tab ∧ p.src.queue = [] ∧ p.dst.queue = [] := by
  unfold accept at h
  simp only [Ipa.Srv.create, if_true, Ipa.Cli.open1, Ipa.Cli.open2, Ipa.Cli.use, Ipa.Cli.create, Bool.false_eq_true, if_false, bind, Except.bind] at h
  cases sock with
  | error e =>
    simp only [] at h
    split at h
    · have := (Prod.mk.inj (Prod.mk.inj (Except.ok.inj h)).2).1
      exact absurd this (by decide)
    · cases h; exact ⟨⟨rfl, rfl, rfl, rfl, rfl, rfl, rfl, rfl, rfl, rfl⟩, rfl, rfl, rfl⟩
  | ok f =>
    cases regOk with
    | true =>
      simp only [if_true] at h
      rw [if_neg (by omega)] at h
      cases h
      exact ⟨⟨rfl, rfl, rfl, rfl, rfl, rfl, rfl, rfl, rfl, rfl⟩, rfl, rfl, rfl⟩
    | false =>
      simp only [Bool.false_eq_true, if_false] at h
      rw [if_pos (by decide)] at h
      have := (Prod.mk.inj (Prod.mk.inj (Except.ok.inj h)).2).1
      exact absurd this (by decide)

/-- **C169**: for every history of a proxied connection, what was sent to the destination, and then what is queued for it, are the messages
of the peer with a route, in their order, each once, with the translated stream; and the same in the other direction -/
theorem C169_forward {tab : Tab} {fd : Nat} {sock : Except Int Nat} {regOk : Bool} {p : Pair} {a0 : List Act}
    (h0 : accept tab fd true sock regOk = .ok (some p, 0, a0)) {ops : List Op} {p' : Pair} {a : List Act} (h : run p ops = .ok (p', a)) :
    toDst a ++ p'.dst.queue = (fromSrc a).filterMap (forward tab.smap tab.did) ∧
    toSrc a ++ p'.src.queue = (fromDst a).filterMap (forward tab.dmap tab.sid) := by
  obtain ⟨hi, rfl, hs, hd⟩ := accept_inv h0
  have g := run_good hi h
  refine ⟨?_, ?_⟩
  · have := g.down; rw [hd] at this; exact this
  · have := g.up; rw [hs] at this; exact this

/-! ### no fault -/

theorem srv_write_ok {c : Ipa.Srv.Conn} (hg : c.gone = false) (ok : Bool) : ∃ x, Ipa.Srv.write c ok = .ok x := by
  simp only [Ipa.Srv.write, Ipa.Srv.use, hg, Bool.false_eq_true, if_false, bind, Except.bind]
  split <;> exact ⟨_, rfl⟩

theorem srv_writePart_ok {c : Ipa.Srv.Conn} (hg : c.gone = false) (rc : Int) (wr ok : Bool) : ∃ x, Ipa.Srv.writePart c rc wr ok = .ok x := by
  unfold Ipa.Srv.writePart
  split
  · exact srv_write_ok hg ok
  · exact ⟨_, rfl⟩

theorem srv_destroy_ok {c : Ipa.Srv.Conn} (hg : c.gone = false) (hr : c.reg = c.fd.isSome) : ∃ x, Ipa.Srv.destroy c = .ok x := by
  simp only [Ipa.Srv.destroy, Ipa.Srv.use, hg, Bool.false_eq_true, if_false, bind, Except.bind]
  cases hf : c.fd with
  | none => exact ⟨_, rfl⟩
  | some f =>
    have h1 : c.reg = true := by rw [hr, hf]; rfl
    simp only [h1, if_true]
    split <;> exact ⟨_, rfl⟩

theorem srv_fdCb_ok {c : Ipa.Srv.Conn} (hg : c.gone = false) (hr : c.reg = c.fd.isSome) (rd wr : Bool) (rcv : Ipa.Srv.Rcv) (ok : Bool) :
    ∃ x, Ipa.Srv.fdCb c rd wr rcv ok = .ok x := by
  simp only [Ipa.Srv.fdCb, Ipa.Srv.use, hg, Bool.false_eq_true, if_false, bind, Except.bind]
  split
  · cases rcv with
    | again => exact srv_writePart_ok hg 0 wr ok
    | err => exact srv_destroy_ok hg hr
    | msg m =>
      simp only []
      split
      · exact ⟨_, rfl⟩
      · exact srv_writePart_ok hg 0 wr ok
  · exact srv_writePart_ok hg 0 wr ok

theorem cli_close_ok {c : Ipa.Cli.Conn} (hg : c.gone = false) (hr : c.reg = c.fd.isSome) : ∃ x, Ipa.Cli.close c = .ok x := by
  simp only [Ipa.Cli.close, Ipa.Cli.use, hg, Bool.false_eq_true, if_false, bind, Except.bind]
  cases hf : c.fd with
  | none => exact ⟨_, rfl⟩
  | some f =>
    have h1 : c.reg = true := by rw [hr, hf]; rfl
    simp only [h1, if_true]
    exact ⟨_, rfl⟩

theorem cli_write_ok {c : Ipa.Cli.Conn} (hg : c.gone = false) (hr : c.reg = c.fd.isSome) (snd : Ipa.Cli.Snd) : ∃ x, Ipa.Cli.write c snd = .ok x := by
  obtain ⟨fd, reg, wr, timer, state, queue, updown, readCb, frames, gone, gen⟩ := c
  simp only at hg hr
  subst hg
  subst hr
  cases queue with
  | nil => exact ⟨_, rfl⟩
  | cons m q =>
    cases fd with
    | none => cases snd <;> exact ⟨_, rfl⟩
    | some f =>
      cases snd with
      | count n => exact ⟨_, rfl⟩
      | other => exact ⟨_, rfl⟩
      | pipe => cases updown <;> exact ⟨_, rfl⟩

theorem cli_writePart_ok {c : Ipa.Cli.Conn} (hg : c.gone = false) (hr : c.reg = c.fd.isSome) (rc : Int) (wr : Bool) (snd : Ipa.Cli.Snd) :
    ∃ x, Ipa.Cli.writePart c rc wr snd = .ok x := by
  unfold Ipa.Cli.writePart
  split
  · exact cli_write_ok hg hr snd
  · exact ⟨_, rfl⟩

theorem cli_connectFailure_ok {c : Ipa.Cli.Conn} (hg : c.gone = false) (hr : c.reg = c.fd.isSome) : ∃ x, Ipa.Cli.connectFailure c = .ok x := by
  unfold Ipa.Cli.connectFailure
  obtain ⟨x, hx⟩ := cli_close_ok hg hr
  rw [hx]
  exact ⟨_, rfl⟩

theorem cli_fdCb_ok {c : Ipa.Cli.Conn} (hg : c.gone = false) (hr : c.reg = c.fd.isSome) (rd wr err : Bool) (rcv : Ipa.Cli.Rcv) (snd : Ipa.Cli.Snd) :
    ∃ x, Ipa.Cli.fdCb c rd wr err rcv snd = .ok x := by
  unfold Ipa.Cli.fdCb
  cases c.state with
  | connecting =>
    simp only [Ipa.Cli.fdConnecting, Ipa.Cli.use, hg, Bool.false_eq_true, if_false, bind, Except.bind]
    split
    · exact cli_connectFailure_ok hg hr
    · split <;> exact ⟨_, rfl⟩
  | connected =>
    simp only [Ipa.Cli.fdConnected, Ipa.Cli.use, hg, Bool.false_eq_true, if_false, bind, Except.bind]
    split
    · cases rcv with
      | again => exact cli_writePart_ok hg hr 0 wr snd
      | err => exact cli_connectFailure_ok hg hr
      | msg m =>
        simp only []
        split
        · exact ⟨_, rfl⟩
        · exact cli_writePart_ok hg hr 0 wr snd
    · exact cli_writePart_ok hg hr 0 wr snd

theorem proto_some {m : Msg} (h : 3 ≤ m.data.length) : ∃ b, proto m = .ok b := by
  obtain ⟨i, d⟩ := m
  match d, h with
  | x :: y :: z :: rest, _ => exact ⟨z, rfl⟩

theorem step_ok {p : Pair} (hi : PInv p) {op : Op} (ha : Adm p op) (ho : ¬ Orphan p op) : ∃ x, step p op = .ok x := by
  cases op with
  | timeout =>
    simp only [step, timeout, Ipa.Cli.step]
    obtain ⟨x, hx⟩ := cli_connectFailure_ok (c := { p.dst with timer := false }) hi.dg hi.dr
    rw [hx]
    exact ⟨_, rfl⟩
  | src rd wr rcv ok =>
    obtain ⟨h1, _, h3⟩ := ha
    have hg : p.src.gone = false := by rw [hi.sg]; rw [hi.sr] at h1; cases hf : p.src.fd <;> simp_all
    simp only [step, srcEv]
    obtain ⟨⟨c, b⟩, hx⟩ := srv_fdCb_ok hg hi.sr rd wr rcv ok
    rw [hx]
    simp only [bind, Except.bind]
    rcases srv_fdCb hi.nc hx with ⟨m, rfl, rfl, _, hr, _⟩ | ⟨h4, _, _, _⟩
    · obtain ⟨o, hp⟩ := proto_some (h3 m hr)
      simp only [srcMsg, srcDeliver, srcCb, hp, bind, Except.bind]
      obtain ⟨y, hy⟩ := srv_writePart_ok (c := { p.src with frames := [] }) hg 0 wr ok
      cases hm : p.tab.smap o with
      | true =>
        simp only [if_true, Ipa.Cli.send, Ipa.Cli.use, hi.dg, Bool.false_eq_true, if_false, bind, Except.bind, Ipa.Srv.cbReturn, hi.sf]
        rw [hy]; exact ⟨_, rfl⟩
      | false =>
        simp only [Bool.false_eq_true, if_false, Ipa.Srv.cbReturn, hi.sf]
        rw [hy]; exact ⟨_, rfl⟩
    · rw [h4]; exact ⟨_, rfl⟩
  | dst rd wr err rcv snd =>
    obtain ⟨_, _, h3⟩ := ha
    simp only [step, dstEv]
    obtain ⟨⟨c, b⟩, hx⟩ := cli_fdCb_ok hi.dg hi.dr rd wr err rcv snd
    rw [hx]
    simp only [bind, Except.bind]
    rcases cli_fdCb hi.up hx with ⟨m, rfl, rfl, hrd, hr, hst, _⟩ | ⟨h4, _, _, _⟩
    · subst hr
      subst hrd
      obtain ⟨o, hp⟩ := proto_some (h3 m rfl)
      simp only [dstMsg, dstDeliver, dstCb, hp, bind, Except.bind]
      obtain ⟨y, hy⟩ := cli_writePart_ok (c := { p.dst with frames := [] }) hi.dg hi.dr 0 wr snd
      cases hm : p.tab.dmap o with
      | true =>
        have hg : p.src.gone = false := by
          cases hg : p.src.gone with
          | false => rfl
          | true => exact absurd ⟨hg, hst, by rw [forward_some hp hm]; rfl⟩ ho
        simp only [if_true, Ipa.Srv.send, Ipa.Srv.use, hg, Bool.false_eq_true, if_false, bind, Except.bind, Ipa.Cli.cbReturn, hi.df]
        rw [hy]; exact ⟨_, rfl⟩
      | false =>
        simp only [Bool.false_eq_true, if_false, Ipa.Cli.cbReturn, hi.df]
        rw [hy]; exact ⟨_, rfl⟩
    · rw [h4]; exact ⟨_, rfl⟩

theorem run_ok : ∀ {ops : List Op} {p : Pair}, PInv p → AdmRun p ops → NoOrphan p ops → ∃ x, run p ops = .ok x := by
  intro ops
  induction ops with
  | nil => intro p _ _ _; exact ⟨_, rfl⟩
  | cons op ops ih =>
    intro p hi ha ho
    obtain ⟨⟨p1, b⟩, hs⟩ := step_ok hi ha.1 ho.1
    obtain ⟨⟨p2, b2⟩, hr⟩ := ih (step_good hi hs).inv (ha.2 p1 b hs) (ho.2 p1 b hs)
    rw [run, hs]
    simp only [bind, Except.bind]
    rw [hr]
    exact ⟨_, rfl⟩

/-- **C169**, partial: every history without a routed message of the destination after the peer has gone runs without fault -/
theorem C169_safe_partial {tab : Tab} {fd : Nat} {sock : Except Int Nat} {regOk : Bool} {p : Pair} {a0 : List Act}
    (h0 : accept tab fd true sock regOk = .ok (some p, 0, a0)) {ops : List Op} (ha : AdmRun p ops) (ho : NoOrphan p ops) :
    ∃ p' a, run p ops = .ok (p', a) := by
  obtain ⟨⟨p', a⟩, h⟩ := run_ok (accept_inv h0).1 ha ho
  exact ⟨p', a, h⟩

/-! ### where it fails -/

/-- an event of one connection never touches the descriptor of the other connection: the loss of one side is not passed on -/
theorem C169_no_hangup {p p' : Pair} {op : Op} {a : List Act} (h : step p op = .ok (p', a)) :
    (∀ rd wr rcv ok, op = .src rd wr rcv ok → p'.dst.fd = p.dst.fd ∧ p'.dst.reg = p.dst.reg ∧ p'.dst.gone = p.dst.gone) ∧
    ((∀ rd wr rcv ok, op ≠ .src rd wr rcv ok) → p'.src.fd = p.src.fd ∧ p'.src.reg = p.src.reg ∧ p'.src.gone = p.src.gone) := by
  cases op with
  | src rd wr rcv ok =>
    refine ⟨fun _ _ _ _ _ => ?_, fun hn => absurd rfl (hn _ _ _ _)⟩
    simp only [step, srcEv] at h
    cases hf : Ipa.Srv.fdCb p.src rd wr rcv ok with
    | error e => rw [hf] at h; cases h
    | ok x =>
      obtain ⟨c, b⟩ := x
      rw [hf] at h
      simp only [bind, Except.bind] at h
      cases hm : srcMsg b with
      | none => rw [hm] at h; cases h; exact ⟨rfl, rfl, rfl⟩
      | some m =>
        rw [hm] at h
        simp only [srcDeliver, srcCb] at h
        cases hp : proto m with
        | error e => rw [hp] at h; cases h
        | ok o =>
          rw [hp] at h
          simp only [bind, Except.bind] at h
          by_cases hq : p.tab.smap o = true
          · simp only [if_pos hq, Ipa.Cli.send, Ipa.Cli.use] at h
            cases hg : p.dst.gone with
            | true => simp [hg, bind, Except.bind] at h
            | false =>
              simp only [hg, Bool.false_eq_true, if_false, bind, Except.bind] at h
              cases hr : Ipa.Srv.cbReturn c 0 with
              | error e => rw [hr] at h; cases h
              | ok y => rw [hr] at h; cases h; exact ⟨rfl, rfl, rfl⟩
          · simp only [if_neg hq] at h
            cases hr : Ipa.Srv.cbReturn c 0 with
            | error e => rw [hr] at h; cases h
            | ok y => rw [hr] at h; cases h; exact ⟨rfl, rfl, rfl⟩
  | timeout =>
    refine ⟨fun _ _ _ _ he => (nomatch he), fun _ => ?_⟩
    simp only [step, timeout] at h
    cases hf : Ipa.Cli.step p.dst .timeout with
    | error e => rw [hf] at h; cases h
    | ok x => rw [hf] at h; cases h; exact ⟨rfl, rfl, rfl⟩
  | dst rd wr err rcv snd =>
    refine ⟨fun _ _ _ _ he => (nomatch he), fun _ => ?_⟩
    simp only [step, dstEv] at h
    cases hf : Ipa.Cli.fdCb p.dst rd wr err rcv snd with
    | error e => rw [hf] at h; cases h
    | ok x =>
      obtain ⟨c, b⟩ := x
      rw [hf] at h
      simp only [bind, Except.bind] at h
      cases hm : dstMsg b with
      | none => rw [hm] at h; cases h; exact ⟨rfl, rfl, rfl⟩
      | some m =>
        rw [hm] at h
        simp only [dstDeliver, dstCb] at h
        cases hp : proto m with
        | error e => rw [hp] at h; cases h
        | ok o =>
          rw [hp] at h
          simp only [bind, Except.bind] at h
          by_cases hq : p.tab.dmap o = true
          · simp only [if_pos hq, Ipa.Srv.send, Ipa.Srv.use] at h
            cases hg : p.src.gone with
            | true => simp [hg, bind, Except.bind] at h
            | false =>
              simp only [hg, Bool.false_eq_true, if_false, bind, Except.bind] at h
              cases hr : Ipa.Cli.cbReturn c 0 with
              | error e => rw [hr] at h; cases h
              | ok y => rw [hr] at h; cases h; exact ⟨rfl, rfl, rfl⟩
          · simp only [if_neg hq] at h
            cases hr : Ipa.Cli.cbReturn c 0 with
            | error e => rw [hr] at h; cases h
            | ok y => rw [hr] at h; cases h; exact ⟨rfl, rfl, rfl⟩

/-- a step that does not come from the socket of the destination hands nothing to it -/
theorem step_toDst {p p' : Pair} (hi : PInv p) {op : Op} {a : List Act} (h : step p op = .ok (p', a))
    (hop : ∀ rd wr err rcv snd, op = .dst rd wr err rcv snd → wr = false) : toDst a = [] ∧ (p.dst.wr = false → (∀ rd wr rcv ok, op ≠ .src rd wr rcv ok) → p'.dst.wr = false) := by
  cases op with
  | src rd wr rcv ok =>
    refine ⟨?_, fun _ hn => absurd rfl (hn _ _ _ _)⟩
    simp only [step, srcEv] at h
    cases hf : Ipa.Srv.fdCb p.src rd wr rcv ok with
    | error e => rw [hf] at h; cases h
    | ok x =>
      obtain ⟨c, b⟩ := x
      rw [hf] at h
      simp only [bind, Except.bind] at h
      cases hm : srcMsg b with
      | none => rw [hm] at h; cases h; exact toDst_src b
      | some m =>
        rw [hm] at h
        simp only [srcDeliver, srcCb] at h
        cases hp : proto m with
        | error e => rw [hp] at h; cases h
        | ok o =>
          rw [hp] at h
          simp only [bind, Except.bind, Ipa.Cli.send, Ipa.Cli.use, hi.dg, Bool.false_eq_true, if_false] at h
          by_cases hq : p.tab.smap o = true
          · simp only [if_pos hq] at h
            cases hr : Ipa.Srv.cbReturn c 0 with
            | error e => rw [hr] at h; cases h
            | ok y =>
              rw [hr] at h; cases h
              simp only [toDst_append, toDst_src, List.map_nil, List.nil_append]
          · simp only [if_neg hq] at h
            cases hr : Ipa.Srv.cbReturn c 0 with
            | error e => rw [hr] at h; cases h
            | ok y =>
              rw [hr] at h; cases h
              simp only [toDst_append, toDst_src]
              rfl
  | timeout =>
    simp only [step, timeout] at h
    cases hf : Ipa.Cli.step p.dst .timeout with
    | error e => rw [hf] at h; cases h
    | ok x =>
      obtain ⟨c, b⟩ := x
      rw [hf] at h; cases h
      rw [toDst_dst]
      simp only [Ipa.Cli.step, Ipa.Cli.connectFailure] at hf
      cases hc : Ipa.Cli.close { p.dst with timer := false } with
      | error e => rw [hc] at hf; cases hf
      | ok y =>
        obtain ⟨c1, b1⟩ := y
        obtain ⟨h1, _, _, h4⟩ := cli_close hc
        rw [hc] at hf
        have hu1 : c1.updown = false := h4.updown.trans hi.up
        simp only [bind, Except.bind, Ipa.Cli.callDown, hu1, Bool.false_eq_true, if_false, List.append_nil] at hf
        cases hf
        exact ⟨h1, fun hw _ => (cli_close_wr hc).trans hw⟩
  | dst rd wr err rcv snd =>
    have hw0 := hop _ _ _ _ _ rfl
    subst hw0
    simp only [step, dstEv] at h
    cases hf : Ipa.Cli.fdCb p.dst rd false err rcv snd with
    | error e => rw [hf] at h; cases h
    | ok x =>
      obtain ⟨c, b⟩ := x
      obtain ⟨k1, k2⟩ := cli_fdCb_nw hi.up hf
      rw [hf] at h
      simp only [bind, Except.bind] at h
      rcases cli_fdCb hi.up hf with ⟨m, rfl, rfl, hrd, hr, hst, _⟩ | ⟨h4, _, _, _⟩
      · simp only [dstMsg, dstDeliver, dstCb] at h
        cases hp : proto m with
        | error e => rw [hp] at h; cases h
        | ok o =>
          rw [hp] at h
          simp only [bind, Except.bind, Ipa.Srv.send, Ipa.Srv.use, Ipa.Cli.cbReturn, hi.df] at h
          simp only [Ipa.Cli.writePart, Bool.false_eq_true, and_false, if_false] at h
          by_cases hq : p.tab.dmap o = true
          · simp only [if_pos hq] at h
            cases hg : p.src.gone with
            | true => simp [hg] at h
            | false =>
              simp only [hg, Bool.false_eq_true, if_false] at h
              cases h
              exact ⟨by simp [toDst], fun hw _ => hw⟩
          · simp only [if_neg hq] at h
            cases h
            exact ⟨by simp [toDst], fun hw _ => hw⟩
      · rw [h4] at h
        cases h
        rw [toDst_dst]
        exact ⟨k1, fun hw _ => k2 hw⟩

/-- once the connection to the destination is lost, nothing of what the peer sends, in any further history, reaches a socket: the proxy neither
connects again nor hangs up, it queues without end -/
theorem C169_dst_lost_violated : ∀ {ops : List Op} {p p' : Pair} {a : List Act}, PInv p → p.dst.fd = none → AdmRun p ops → run p ops = .ok (p', a) →
    p'.dst.fd = none ∧ toDst a = [] ∧ p'.dst.queue = p.dst.queue ++ (fromSrc a).filterMap (forward p.tab.smap p.tab.did) := by
  intro ops
  induction ops with
  | nil => intro p p' a _ hf _ h; cases h; exact ⟨hf, rfl, by simp [fromSrc]⟩
  | cons op ops ih =>
    intro p p' a hi hf ha h
    rw [run] at h
    cases hs : step p op with
    | error e => rw [hs] at h; cases h
    | ok x =>
      obtain ⟨p1, b⟩ := x
      rw [hs] at h
      simp only [bind, Except.bind] at h
      cases hr : run p1 ops with
      | error e => rw [hr] at h; cases h
      | ok y =>
        obtain ⟨p2, b2⟩ := y
        rw [hr] at h
        cases h
        have g := step_good hi hs
        have hnd : ∀ rd wr err rcv snd, op = .dst rd wr err rcv snd → wr = false := by
          intro rd wr err rcv snd he
          subst he
          have := ha.1.1
          rw [hi.dr, hf] at this
          cases this
        have h1 := (step_toDst hi hs hnd).1
        have hf1 : p1.dst.fd = none := by
          cases op with
          | src rd wr rcv ok => rw [((C169_no_hangup hs).1 _ _ _ _ rfl).1]; exact hf
          | dst rd wr err rcv snd =>
            have := ha.1.1
            rw [hi.dr, hf] at this
            cases this
          | timeout =>
            simp only [step, timeout, Ipa.Cli.step, Ipa.Cli.connectFailure, Ipa.Cli.close, Ipa.Cli.use, hi.dg, hf, Bool.false_eq_true, if_false, bind,
              Except.bind, Ipa.Cli.callDown, hi.up] at hs
            cases hs
            rfl
        obtain ⟨k1, k2, k3⟩ := ih g.inv hf1 (ha.2 p1 b hs) hr
        have g1 := g.down
        rw [h1, List.nil_append] at g1
        refine ⟨k1, by rw [toDst_append, h1, k2]; rfl, ?_⟩
        rw [k3, g1, g.tab, fromSrc_append, List.filterMap_append, List.append_assoc]

theorem dst_fromSrc {p p' : Pair} (hi : PInv p) {rd wr err : Bool} {rcv : Ipa.Cli.Rcv} {snd : Ipa.Cli.Snd} {a : List Act}
    (h : step p (.dst rd wr err rcv snd) = .ok (p', a)) : fromSrc a = [] := by
  simp only [step, dstEv] at h
  cases hf : Ipa.Cli.fdCb p.dst rd wr err rcv snd with
  | error e => rw [hf] at h; cases h
  | ok x =>
    obtain ⟨c, b⟩ := x
    rw [hf] at h
    simp only [bind, Except.bind] at h
    rcases cli_fdCb hi.up hf with ⟨m, rfl, rfl, hrd, hr, hst, _⟩ | ⟨h4, _, _, _⟩
    · simp only [dstMsg, dstDeliver, dstCb] at h
      cases hp : proto m with
      | error e => rw [hp] at h; cases h
      | ok o =>
        rw [hp] at h
        simp only [bind, Except.bind, Ipa.Srv.send, Ipa.Srv.use, Ipa.Cli.cbReturn, hi.df] at h
        by_cases hq : p.tab.dmap o = true
        · simp only [if_pos hq] at h
          cases hg : p.src.gone with
          | true => simp [hg] at h
          | false =>
            simp only [hg, Bool.false_eq_true, if_false] at h
            cases hw : Ipa.Cli.writePart { p.dst with frames := [] } 0 wr snd with
            | error e => rw [hw] at h; cases h
            | ok y =>
              rw [hw] at h; cases h
              simp only [fromSrc_append, fromSrc_dst, List.map_nil, List.nil_append]
        · simp only [if_neg hq] at h
          cases hw : Ipa.Cli.writePart { p.dst with frames := [] } 0 wr snd with
          | error e => rw [hw] at h; cases h
          | ok y =>
            rw [hw] at h; cases h
            simp only [fromSrc_append, fromSrc_dst, List.nil_append, List.append_nil]
            rfl
    · rw [h4] at h
      cases h
      exact fromSrc_dst b

/-- what was queued before the connection was established is not sent, whatever the destination does, until the peer sends another message -/
theorem C169_wake : ∀ {ops : List Op} {p p' : Pair} {a : List Act}, PInv p → p.dst.wr = false → (∀ rd wr rcv ok, .src rd wr rcv ok ∉ ops) → AdmRun p ops →
    run p ops = .ok (p', a) → toDst a = [] ∧ p'.dst.queue = p.dst.queue := by
  intro ops
  induction ops with
  | nil => intro p p' a _ _ _ _ h; cases h; exact ⟨rfl, rfl⟩
  | cons op ops ih =>
    intro p p' a hi hw hn ha h
    rw [run] at h
    cases hs : step p op with
    | error e => rw [hs] at h; cases h
    | ok x =>
      obtain ⟨p1, b⟩ := x
      rw [hs] at h
      simp only [bind, Except.bind] at h
      cases hr : run p1 ops with
      | error e => rw [hr] at h; cases h
      | ok y =>
        obtain ⟨p2, b2⟩ := y
        rw [hr] at h
        cases h
        have g := step_good hi hs
        have hnd : ∀ rd wr err rcv snd, op = .dst rd wr err rcv snd → wr = false := by
          intro rd wr err rcv snd he
          subst he
          cases wr with
          | false => rfl
          | true => have := ha.1.2.1 rfl; rw [hw] at this; cases this
        obtain ⟨h1, h2⟩ := step_toDst hi hs hnd
        have hns : ∀ rd wr rcv ok, op ≠ .src rd wr rcv ok := fun rd wr rcv ok he => hn rd wr rcv ok (he ▸ List.mem_cons_self)
        have hw1 := h2 hw hns
        obtain ⟨k1, k2⟩ := ih g.inv hw1 (fun rd wr rcv ok hm => hn rd wr rcv ok (List.mem_cons_of_mem _ hm)) (ha.2 p1 b hs) hr
        have g1 := g.down
        have hz : fromSrc b = [] := by
          cases op with
          | src rd wr rcv ok => exact absurd rfl (hns rd wr rcv ok)
          | timeout =>
            simp only [step, timeout] at hs
            cases hf : Ipa.Cli.step p.dst .timeout with
            | error e => rw [hf] at hs; cases hs
            | ok x => obtain ⟨c, d⟩ := x; rw [hf] at hs; cases hs; exact fromSrc_dst d
          | dst rd wr err rcv snd =>
            have hwr := hnd _ _ _ _ _ rfl
            subst hwr
            exact dst_fromSrc hi hs
        rw [h1, hz, List.nil_append, List.filterMap_nil, List.append_nil] at g1
        exact ⟨by rw [toDst_append, h1, k1]; rfl, by rw [k2, g1]⟩

/-! ### concrete histories -/

/-- every stream is routed, stream s of one side is stream s+1 of the other -/
def exTab : Tab := ⟨fun _ => true, fun b => b, fun _ => true, fun b => b + 1⟩
def exMsg (i : Nat) : Msg := ⟨i, [0, 1, 0xfe, 7]⟩
def exPair : Pair := ⟨{ fd := some 5, reg := true, wr := false, queue := [], cb := true, closedCb := false, ccmCb := false, frames := [], gone := false },
  { fd := some 6, reg := true, wr := true, timer := true, state := .connecting, queue := [], updown := false, readCb := true, frames := [], gone := false, gen := 1 }, exTab⟩

example : (match accept exTab 5 true (.ok 6) true with | .ok (some p, rc, a) => some (p.src, p.dst, rc, a) | _ => none) =
    some (exPair.src, exPair.dst, 0, [.dst (.opened 6)]) := by decide +kernel

/-- two messages pass, one in each direction, and a message of the peer -/
example : (run exPair [.dst false true false .again (.count 4), .src true false (.msg (exMsg 1)) true, .dst true true false (.msg (exMsg 2)) (.count 4),
      .src false true .again true]).map (fun x => (toDst x.2, toSrc x.2, x.1.dst.queue, x.1.src.queue)) =
    .ok ([⟨1, [0, 1, 0xff, 7]⟩], [⟨2, [0, 1, 0xfe, 7]⟩], [], []) := by decide +kernel

/-- without route the message is dropped -/
example : (run { exPair with tab := { exTab with smap := fun b => b != 0xfe } } [.src true false (.msg (exMsg 1)) true]).map
    (fun x => (x.2, x.1.dst.queue)) = .ok ([.src (.deliver (exMsg 1)), .drop (exMsg 1)], []) := by decide +kernel

/-- the destination cannot be reached (the socket cannot be registered): the callback fails, its caller closes the accepted descriptor, and the peer's
connection, which is not destroyed, stays registered with it -/
theorem C169_open_failed_violated :
    (match accept exTab 5 true (.ok 6) false with | .ok (some p, rc, a) => some (p.src, rc, a) | _ => none) =
      some (exPair.src, -ENOMEM, [.dst (.opened 6), .dst (.closeFd 6), .closeFd 5]) ∧
    (match accept exTab 5 true (.error (-111)) true with | .ok (some p, rc, a) => some (p.src, rc, a) | _ => none) =
      some (exPair.src, -ENOMEM, [.closeFd 5]) := ⟨by decide +kernel, by decide +kernel⟩

/-- the peer hangs up, the destination sends: the freed connection of the peer is used -/
theorem C169_src_lost_violated :
    (run exPair [.dst false true false .again (.count 0), .src true false .err true]).map (fun x => (x.1.src.gone, x.1.dst.reg, x.1.dst.fd)) = .ok (true, true, some 6) ∧
    (run exPair [.dst false true false .again (.count 0), .src true false .err true, .dst true false false (.msg (exMsg 2)) (.count 0)]).map (fun x => x.2) =
      .error .badptr := by decide +kernel

/-- a message of the peer that arrives while the proxy still connects is queued with the interest in writing switched off by the established connection -/
theorem C169_wake_violated :
    (run exPair [.src true false (.msg (exMsg 1)) true, .dst false true false .again (.count 0)]).map
      (fun x => (x.1.dst.queue, x.1.dst.state, x.1.dst.fd, x.1.dst.wr)) = .ok ([⟨1, [0, 1, 0xff, 7]⟩], .connected, some 6, false) := by decide +kernel

/-- the hypotheses of the theorems are met -/
theorem exPair_inv : PInv exPair := ⟨rfl, rfl, rfl, rfl, rfl, rfl, rfl, rfl, rfl, rfl⟩

end Verif.IpaProxy.Pair
