import Verif.Spec.IpaProxyPair
import Verif.Spec.IpaClient
import Verif.Spec.IpaServer
/-!
# Proofs for C169: one event of either connection
-/
namespace Verif.IpaProxy.Pair
open Verif.Ipa (Msg)

def cgot (a : List Ipa.Cli.Act) : List Msg := a.filterMap fun x => match x with | .deliver m => some m | _ => none
def sgot (a : List Ipa.Srv.Act) : List Msg := a.filterMap fun x => match x with | .deliver m => some m | _ => none

structure CSame (c c' : Ipa.Cli.Conn) : Prop where
  frames : c'.frames = c.frames
  updown : c'.updown = c.updown
  readCb : c'.readCb = c.readCb
  gone : c'.gone = c.gone
  reg : c.reg = c.fd.isSome → c'.reg = c'.fd.isSome

structure SSame (c c' : Ipa.Srv.Conn) : Prop where
  frames : c'.frames = c.frames
  cb : c'.cb = c.cb
  closedCb : c'.closedCb = c.closedCb
  reg : c.reg = c.fd.isSome → c'.reg = c'.fd.isSome
  gone : (c.gone = c.fd.isNone) → c'.gone = c'.fd.isNone

theorem cli_write {c c' : Ipa.Cli.Conn} {snd : Ipa.Cli.Snd} {a : List Ipa.Cli.Act} (hu : c.updown = false) (h : Ipa.Cli.write c snd = .ok (c', a)) :
    Ipa.Cli.handed a ++ c'.queue = c.queue ∧ cgot a = [] ∧ CSame c c' := by
  obtain ⟨fd, reg, wr, timer, state, queue, updown, readCb, frames, gone, gen⟩ := c
  simp only at hu
  subst hu
  cases gone with
  | true => cases h
  | false =>
    cases queue with
    | nil => cases h; exact ⟨rfl, rfl, ⟨rfl, rfl, rfl, rfl, id⟩⟩
    | cons m q =>
      cases fd with
      | none => cases snd <;> (cases h; exact ⟨rfl, rfl, ⟨rfl, rfl, rfl, rfl, id⟩⟩)
      | some f =>
        cases snd with
        | count n => cases h; exact ⟨rfl, rfl, ⟨rfl, rfl, rfl, rfl, id⟩⟩
        | other => cases h; exact ⟨rfl, rfl, ⟨rfl, rfl, rfl, rfl, id⟩⟩
        | pipe =>
          cases reg with
          | false => cases h
          | true => cases h; exact ⟨rfl, rfl, ⟨rfl, rfl, rfl, rfl, fun _ => rfl⟩⟩

theorem cli_writePart {c c' : Ipa.Cli.Conn} {rc : Int} {wr : Bool} {snd : Ipa.Cli.Snd} {a : List Ipa.Cli.Act} (hu : c.updown = false)
    (h : Ipa.Cli.writePart c rc wr snd = .ok (c', a)) :
    Ipa.Cli.handed a ++ c'.queue = c.queue ∧ cgot a = [] ∧ CSame c c' := by
  unfold Ipa.Cli.writePart at h
  split at h
  · exact cli_write hu h
  · cases h; exact ⟨rfl, rfl, ⟨rfl, rfl, rfl, rfl, id⟩⟩

theorem cli_close {c c' : Ipa.Cli.Conn} {a : List Ipa.Cli.Act} (h : Ipa.Cli.close c = .ok (c', a)) :
    Ipa.Cli.handed a = [] ∧ c'.queue = c.queue ∧ cgot a = [] ∧ CSame c c' := by
  obtain ⟨fd, reg, wr, timer, state, queue, updown, readCb, frames, gone, gen⟩ := c
  cases gone with
  | true => cases h
  | false =>
    cases fd with
    | none => cases h; exact ⟨rfl, rfl, rfl, ⟨rfl, rfl, rfl, rfl, id⟩⟩
    | some f =>
      cases reg with
      | false => cases h
      | true => cases h; exact ⟨rfl, rfl, rfl, ⟨rfl, rfl, rfl, rfl, fun _ => rfl⟩⟩

theorem cli_connectFailure {c c' : Ipa.Cli.Conn} {a : List Ipa.Cli.Act} (hu : c.updown = false) (h : Ipa.Cli.connectFailure c = .ok (c', a)) :
    Ipa.Cli.handed a ++ c'.queue = c.queue ∧ cgot a = [] ∧ CSame c c' := by
  unfold Ipa.Cli.connectFailure at h
  cases hc : Ipa.Cli.close c with
  | error e => rw [hc] at h; cases h
  | ok x =>
    obtain ⟨c1, b⟩ := x
    obtain ⟨h1, h2, h3, h4⟩ := cli_close hc
    rw [hc] at h
    have hu1 : c1.updown = false := h4.updown.trans hu
    simp only [bind, Except.bind, Ipa.Cli.callDown, hu1, Bool.false_eq_true, if_false, List.append_nil] at h
    cases h
    exact ⟨by rw [h1, h2]; rfl, h3, h4⟩

/-- an event of the client connection: a message is delivered, or there is nothing for the proxy to do -/
theorem cli_fdCb {c c' : Ipa.Cli.Conn} {rd wr err : Bool} {rcv : Ipa.Cli.Rcv} {snd : Ipa.Cli.Snd} {a : List Ipa.Cli.Act} (hu : c.updown = false)
    (h : Ipa.Cli.fdCb c rd wr err rcv snd = .ok (c', a)) :
    (∃ m, a = [.deliver m] ∧ c' = { c with frames := .afterRead c.gen wr snd :: c.frames } ∧ rd = true ∧ rcv = .msg m ∧ c.state = .connected ∧ c.gone = false) ∨
    (dstMsg a = none ∧ Ipa.Cli.handed a ++ c'.queue = c.queue ∧ cgot a = [] ∧ CSame c c') := by
  have done : (Ipa.Cli.handed a ++ c'.queue = c.queue ∧ cgot a = [] ∧ CSame c c') →
      (dstMsg a = none ∧ Ipa.Cli.handed a ++ c'.queue = c.queue ∧ cgot a = [] ∧ CSame c c') := by
    intro k
    refine ⟨?_, k⟩
    unfold dstMsg
    split
    · have := k.2.1; simp [cgot] at this
    · rfl
  unfold Ipa.Cli.fdCb at h
  cases hs : c.state with
  | connecting =>
    rw [hs] at h
    right
    apply done
    simp only [Ipa.Cli.fdConnecting] at h
    cases hg : c.gone with
    | true => simp [Ipa.Cli.use, hg, bind, Except.bind] at h
    | false =>
      simp only [Ipa.Cli.use, hg, Bool.false_eq_true, if_false, bind, Except.bind] at h
      cases err with
      | true => rw [if_pos rfl] at h; exact cli_connectFailure hu h
      | false =>
        simp only [Bool.false_eq_true, if_false, hu] at h
        cases h
        exact ⟨rfl, rfl, ⟨rfl, hu.symm, rfl, hg.symm, id⟩⟩
  | connected =>
    rw [hs] at h
    simp only [Ipa.Cli.fdConnected] at h
    cases hg : c.gone with
    | true => simp [Ipa.Cli.use, hg, bind, Except.bind] at h
    | false =>
      simp only [Ipa.Cli.use, hg, Bool.false_eq_true, if_false, bind, Except.bind] at h
      cases rd with
      | false =>
        simp only [Bool.false_eq_true, if_false] at h
        exact .inr (done (cli_writePart hu h))
      | true =>
        simp only [if_true] at h
        cases rcv with
        | again => exact .inr (done (cli_writePart hu h))
        | err =>
          simp only [] at h
          right
          apply done
          exact cli_connectFailure hu h
        | msg m =>
          simp only [] at h
          cases hr : c.readCb with
          | true =>
            rw [hr, if_pos rfl] at h
            cases h
            exact .inl ⟨m, rfl, by cases c; simp_all, rfl, rfl, rfl, rfl⟩
          | false =>
            rw [hr] at h
            simp only [Bool.false_eq_true, if_false] at h
            exact .inr (done (cli_writePart hu h))

theorem srv_write {c c' : Ipa.Srv.Conn} {ok : Bool} {a : List Ipa.Srv.Act} (h : Ipa.Srv.write c ok = .ok (c', a)) :
    Ipa.Srv.handed a ++ c'.queue = c.queue ∧ sgot a = [] ∧ SSame c c' := by
  obtain ⟨fd, reg, wr, queue, cb, closedCb, ccmCb, frames, gone⟩ := c
  cases gone with
  | true => cases h
  | false =>
    cases queue with
    | nil => cases h; exact ⟨rfl, rfl, ⟨rfl, rfl, rfl, id, id⟩⟩
    | cons m q => cases h; exact ⟨rfl, rfl, ⟨rfl, rfl, rfl, id, id⟩⟩

theorem srv_writePart {c c' : Ipa.Srv.Conn} {rc : Int} {wr ok : Bool} {a : List Ipa.Srv.Act} (h : Ipa.Srv.writePart c rc wr ok = .ok (c', a)) :
    Ipa.Srv.handed a ++ c'.queue = c.queue ∧ sgot a = [] ∧ SSame c c' := by
  unfold Ipa.Srv.writePart at h
  split at h
  · exact srv_write h
  · cases h; exact ⟨rfl, rfl, ⟨rfl, rfl, rfl, id, id⟩⟩

theorem srv_destroy {c c' : Ipa.Srv.Conn} {a : List Ipa.Srv.Act} (hn : c.closedCb = false) (h : Ipa.Srv.destroy c = .ok (c', a)) :
    Ipa.Srv.handed a ++ c'.queue = c.queue ∧ sgot a = [] ∧ SSame c c' := by
  obtain ⟨fd, reg, wr, queue, cb, closedCb, ccmCb, frames, gone⟩ := c
  simp only at hn
  subst hn
  cases gone with
  | true => cases h
  | false =>
    cases fd with
    | none => cases h; exact ⟨rfl, rfl, ⟨rfl, rfl, rfl, id, id⟩⟩
    | some f =>
      cases reg with
      | false => cases h
      | true => cases h; exact ⟨rfl, rfl, ⟨rfl, rfl, rfl, fun _ => rfl, fun _ => rfl⟩⟩

/-- an event of the server connection: a message is delivered, or there is nothing for the proxy to do -/
theorem srv_fdCb {c c' : Ipa.Srv.Conn} {rd wr : Bool} {rcv : Ipa.Srv.Rcv} {ok : Bool} {a : List Ipa.Srv.Act} (hn : c.closedCb = false)
    (h : Ipa.Srv.fdCb c rd wr rcv ok = .ok (c', a)) :
    (∃ m, a = [.deliver m] ∧ c' = { c with frames := .afterRead wr ok :: c.frames } ∧ rd = true ∧ rcv = .msg m ∧ c.gone = false) ∨
    (srcMsg a = none ∧ Ipa.Srv.handed a ++ c'.queue = c.queue ∧ sgot a = [] ∧ SSame c c') := by
  have done : (Ipa.Srv.handed a ++ c'.queue = c.queue ∧ sgot a = [] ∧ SSame c c') →
      (srcMsg a = none ∧ Ipa.Srv.handed a ++ c'.queue = c.queue ∧ sgot a = [] ∧ SSame c c') := by
    intro k
    refine ⟨?_, k⟩
    unfold srcMsg
    split
    · have := k.2.1; simp [sgot] at this
    · rfl
  simp only [Ipa.Srv.fdCb] at h
  cases hg : c.gone with
  | true => simp [Ipa.Srv.use, hg, bind, Except.bind] at h
  | false =>
    simp only [Ipa.Srv.use, hg, Bool.false_eq_true, if_false, bind, Except.bind] at h
    cases rd with
    | false =>
      simp only [Bool.false_eq_true, if_false] at h
      exact .inr (done (srv_writePart h))
    | true =>
      simp only [if_true] at h
      cases rcv with
      | again => exact .inr (done (srv_writePart h))
      | err => exact .inr (done (srv_destroy hn h))
      | msg m =>
        simp only [] at h
        cases hr : c.cb with
        | true =>
          rw [hr, if_pos rfl] at h
          cases h
          exact .inl ⟨m, rfl, rfl, rfl, rfl, rfl⟩
        | false =>
          rw [hr] at h
          simp only [Bool.false_eq_true, if_false] at h
          exact .inr (done (srv_writePart h))

theorem cli_close_wr {c c' : Ipa.Cli.Conn} {a : List Ipa.Cli.Act} (h : Ipa.Cli.close c = .ok (c', a)) : c'.wr = c.wr := by
  obtain ⟨fd, reg, wr, timer, state, queue, updown, readCb, frames, gone, gen⟩ := c
  cases gone with
  | true => cases h
  | false =>
    cases fd with
    | none => cases h; rfl
    | some f =>
      cases reg with
      | false => cases h
      | true => cases h; rfl

theorem cli_connectFailure_nw {c c' : Ipa.Cli.Conn} {a : List Ipa.Cli.Act} (hu : c.updown = false) (h : Ipa.Cli.connectFailure c = .ok (c', a)) :
    Ipa.Cli.handed a = [] ∧ c'.wr = c.wr := by
  unfold Ipa.Cli.connectFailure at h
  cases hc : Ipa.Cli.close c with
  | error e => rw [hc] at h; cases h
  | ok x =>
    obtain ⟨c1, b⟩ := x
    obtain ⟨h1, _, _, h4⟩ := cli_close hc
    rw [hc] at h
    have hu1 : c1.updown = false := h4.updown.trans hu
    simp only [bind, Except.bind, Ipa.Cli.callDown, hu1, Bool.false_eq_true, if_false, List.append_nil] at h
    cases h
    exact ⟨h1, cli_close_wr hc⟩

/-- without a write event nothing is handed to the socket, and the interest in writing is not switched on -/
theorem cli_fdCb_nw {c c' : Ipa.Cli.Conn} {rd err : Bool} {rcv : Ipa.Cli.Rcv} {snd : Ipa.Cli.Snd} {a : List Ipa.Cli.Act} (hu : c.updown = false)
    (h : Ipa.Cli.fdCb c rd false err rcv snd = .ok (c', a)) : Ipa.Cli.handed a = [] ∧ (c.wr = false → c'.wr = false) := by
  have part : ∀ {rc : Int} {x : Ipa.Cli.Conn × List Ipa.Cli.Act}, Ipa.Cli.writePart c rc false snd = .ok x → x = (c, []) := by
    intro rc x hx
    simp only [Ipa.Cli.writePart, Bool.false_eq_true, and_false, if_false] at hx
    cases hx; rfl
  unfold Ipa.Cli.fdCb at h
  cases hs : c.state with
  | connecting =>
    rw [hs] at h
    simp only [Ipa.Cli.fdConnecting] at h
    cases hg : c.gone with
    | true => simp [Ipa.Cli.use, hg, bind, Except.bind] at h
    | false =>
      simp only [Ipa.Cli.use, hg, Bool.false_eq_true, if_false, bind, Except.bind] at h
      cases err with
      | true =>
        rw [if_pos rfl] at h
        obtain ⟨h1, h2⟩ := cli_connectFailure_nw hu h
        exact ⟨h1, fun hw => h2.trans hw⟩
      | false =>
        simp only [Bool.false_eq_true, if_false, hu] at h
        cases h
        exact ⟨rfl, fun _ => rfl⟩
  | connected =>
    rw [hs] at h
    simp only [Ipa.Cli.fdConnected] at h
    cases hg : c.gone with
    | true => simp [Ipa.Cli.use, hg, bind, Except.bind] at h
    | false =>
      simp only [Ipa.Cli.use, hg, Bool.false_eq_true, if_false, bind, Except.bind] at h
      cases rd with
      | false =>
        simp only [Bool.false_eq_true, if_false] at h
        cases part h
        exact ⟨rfl, id⟩
      | true =>
        simp only [if_true] at h
        cases rcv with
        | again => cases part h; exact ⟨rfl, id⟩
        | err =>
          obtain ⟨h1, h2⟩ := cli_connectFailure_nw hu h
          exact ⟨h1, fun hw => h2.trans hw⟩
        | msg m =>
          simp only [] at h
          split at h
          · cases h; exact ⟨rfl, id⟩
          · cases part h; exact ⟨rfl, id⟩

end Verif.IpaProxy.Pair
