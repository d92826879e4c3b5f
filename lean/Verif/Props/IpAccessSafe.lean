import Verif.Props.IpAccessBts
import Verif.Props.IpaCcm
/-!
# C120, C155: exactly when the ip.access BTS, and the CCM handler of an IPA client, are safe
-/
set_option maxRecDepth 10000
set_option linter.unusedSimpArgs false
namespace Verif.IpAccess.Bts

private theorem pong_fsm {w : W} (I : Inv w) {x : Cli} (hx : x ∈ w.clis) {f : Nat} (h : w.ka x.ts = some f) :
    ∃ y ∈ w.fsms, y.cli = x.id := by
  obtain ⟨y, hy, -, hs⟩ := I.ka x.ts f h
  refine ⟨y, hy, ?_⟩
  rw [I.back x hx] at hs
  exact (Option.some.inj hs).symm

private theorem step_calm {w : W} (I : Inv w) {op : Op} {w' : W} {a : List Act} (h : step w op = .ok (w', a)) : Calm w op := by
  cases op with
  | lineUpdate ok => trivial
  | rslConnect trx ok =>
    show trx < 31
    refine Nat.lt_of_not_le fun hc => ?_
    rw [C120_trx_violated w hc ok] at h
    cases h
  | rslClose trx => trivial
  | connected c =>
    simp only [step, connected, bind, Except.bind] at h
    split at h
    · simp at h
    · rename_i x hg
      obtain ⟨hx, e⟩ := getCli_ok hg
      exact ⟨x, hx, e⟩
  | lost c =>
    simp only [step, cliClose, bind, Except.bind] at h
    split at h
    · simp at h
    · rename_i x hg
      obtain ⟨hx, e⟩ := getCli_ok hg
      exact ⟨x, hx, e⟩
  | rxCcm c m =>
    have h0 := h
    simp only [step, rxCcm, bind, Except.bind] at h
    split at h
    · simp at h
    · rename_i x hg
      obtain ⟨hx, rfl⟩ := getCli_ok hg
      refine ⟨⟨x, hx, rfl, ?_⟩, ?_⟩
      · rintro b rfl
        cases hk : w.ka x.ts with
        | none => rw [C120_pong_violated hg hk b] at h0; cases h0
        | some f => exact pong_fsm I hx hk
      · rintro rfl
        rw [C120_empty_violated hg] at h0; cases h0
  | rx c p m =>
    simp only [step, rx, bind, Except.bind] at h
    split at h
    · simp at h
    · rename_i x hg
      obtain ⟨hx, e⟩ := getCli_ok hg
      exact ⟨x, hx, e⟩
  | kaTimeout f =>
    have h0 := h
    simp only [step, kaTimeout, bind, Except.bind] at h
    split at h
    · simp at h
    · rename_i y hg
      obtain ⟨hy, rfl⟩ := getFsm_ok hg
      refine ⟨y, hy, rfl, ?_⟩
      cases hr : y.run with
      | true => rw [step, kaTimeout_run I hy hr] at h0; cases h0
      | false => rfl
  | kaPing f =>
    simp only [step, kaPing, bind, Except.bind] at h
    split at h
    · simp at h
    · rename_i y hg
      obtain ⟨hy, e⟩ := getFsm_ok hg
      exact ⟨y, hy, e⟩
  | linkCreate t ty tei sapi => trivial
  | linkDestroy k =>
    obtain ⟨x, hx, e, c, hc, e2, -⟩ := linkDestroy_ok I h
    exact ⟨x, hx, e, c, hc, e2⟩
  | sendmsg k m =>
    obtain ⟨x, hx, rfl, c, hc, e, -⟩ := sendmsg_ok I h
    refine ⟨x, hx, rfl, c, hc, e, fun hp => ?_⟩
    rw [step, sendmsg_eq I hx hc e m] at h
    by_cases hk : known x = true ∧ c.st = .connected
    · exact ⟨hk.2, of_decide_eq_true hk.1⟩
    · rw [if_pos ⟨hp, by rw [sendMsg, if_neg hk]; exact List.mem_singleton.2 rfl⟩] at h
      cases h
  | setKap b => trivial

/-- **C120 (exact extent, one event)** In every state a history can reach, an event is handled without undefined
behaviour or an abort *exactly* when it is a `Calm` one: it refers to an existing object, a TRX number is below 31, a
PONG arrives only where there is a keepalive FSM, no CCM message is empty, no running keepalive expires, links are used
and destroyed only while their time slot has a client, and on a traced line only while it is connected and of a known
type. -/
theorem C120_step_iff {kap pcap cf : Bool} {ops : List Op} {w : W} {acts : List Act}
    (h : run (init kap pcap cf) ops = .ok (w, acts)) (op : Op) : (∃ r, step w op = .ok r) ↔ Calm w op :=
  ⟨fun ⟨_, hr⟩ => step_calm (reach h) hr, fun hc => let ⟨_, _, hr⟩ := step_safe (reach h) hc; ⟨_, hr⟩⟩

private theorem run_calm : ∀ {ops : List Op} {w : W} {r : W × List Act}, Inv w → run w ops = .ok r → CalmRun w ops
  | [], _, _, _, _ => trivial
  | op :: ops, w, r, I, h => by
    obtain ⟨w1, a, b, hs, hr, -⟩ := run_cons (w' := r.1) (acts := r.2) h
    refine ⟨step_calm I hs, fun w' a' h' => ?_⟩
    rw [hs] at h'
    cases h'
    exact run_calm (step_inv I hs) hr

/-- **C120 (exact extent, histories)** A history of events is survived by the BTS exactly when all its events are
`Calm` -/
theorem C120_safe_iff (kap pcap cf : Bool) (ops : List Op) :
    (∃ r, run (init kap pcap cf) ops = .ok r) ↔ CalmRun (init kap pcap cf) ops :=
  ⟨fun ⟨_, h⟩ => run_calm (init_inv kap pcap cf) h, C120_safe_partial⟩

/-- both kinds of histories exist -/
example : CalmRun (init true true true) [.lineUpdate true, .connected 0, .rxCcm 0 (.pong true), .linkCreate 0 1 0xff 0, .sendmsg 2 [1]] ∧
    ¬ CalmRun (init false false true) [.lineUpdate true, .connected 0, .rxCcm 0 (.pong true)] := by
  constructor
  · rw [← C120_safe_iff]
    have h : (run (init true true true) [.lineUpdate true, .connected 0, .rxCcm 0 (.pong true), .linkCreate 0 1 0xff 0, .sendmsg 2 [1]]).toOption.isSome = true := by
      decide +kernel
    revert h
    cases run (init true true true) [.lineUpdate true, .connected 0, .rxCcm 0 (.pong true), .linkCreate 0 1 0xff 0, .sendmsg 2 [1]] with
    | error e => intro h; cases h
    | ok r => intro _; exact ⟨r, rfl⟩
  · rw [← C120_safe_iff]
    rintro ⟨r, h⟩
    have := C120_pong_reachable
    rw [h] at this
    cases this

end Verif.IpAccess.Bts

namespace Verif.IpaCcm

/-- **C155 (exact extent of the crashes)** On a live connection, a received message (at least its three octets of header)
is handled without a fault *exactly* when it is not a CCM message that is empty, or a PONG for a connection with a line
but without a keepalive FSM -/
theorem C155_safe_iff {e : Env} {f : Nat} (h : Live e.conn f) (x : Ext) (a b p : Byte) (r : List Byte) :
    (∃ v, handleCcm e x (a :: b :: p :: r) = .ok v) ↔
      ¬ (p = 0xfe ∧ (r = [] ∨ ∃ req, r = 0x01 :: req ∧ NoFsm e 0x01)) := by
  by_cases hp : p = 0xfe
  · subst hp
    cases r with
    | nil =>
      refine ⟨fun ⟨v, hv⟩ => ?_, fun h => absurd ⟨rfl, .inl rfl⟩ h⟩
      rw [C155_empty_violated] at hv
      cases hv
    | cons ty req =>
      constructor
      · rintro ⟨v, hv⟩ ⟨-, h1 | ⟨req', h1, hn⟩⟩
        · cases h1
        · cases h1
          rw [show (a :: b :: 0xfe :: 0x01 :: req) = ccm a b 0x01 req from rfl, C155_pong_violated h x a b req hn] at hv
          cases hv
      · intro hn
        refine C155_safe_partial h x a b ty req (fun hf => hn ⟨rfl, .inr ⟨req, ?_, ?_⟩⟩)
        · rw [hf.1]
        · rw [← hf.1]; exact hf
  · exact ⟨fun _ h => hp h.1, fun _ => ⟨_, C155_other e x a b p r hp⟩⟩

/-- there is a connection for which one PONG is safe and one for which it is not -/
example : (∃ v, handleCcm theEnv theExt [0, 1, 0xfe, 0x01] = .ok v) ∧
    ¬ ∃ v, handleCcm { theEnv with line := some (fun _ => none) } theExt [0, 1, 0xfe, 0x01] = .ok v := by
  constructor
  · refine (C155_safe_iff (e := theEnv) theConn_live theExt 0 1 0xfe [0x01]).2 ?_
    rintro ⟨-, h | ⟨req, -, -, ka, hl, hk⟩⟩
    · cases h
    · cases hl
      exact absurd (hk 3 (by decide)) (by decide)
  · intro h
    exact (C155_safe_iff (e := { theEnv with line := some (fun _ => none) }) theConn_live theExt 0 1 0xfe [0x01]).1 h
      ⟨rfl, .inr ⟨[], rfl, rfl, _, rfl, fun _ _ => rfl⟩⟩

end Verif.IpaCcm
