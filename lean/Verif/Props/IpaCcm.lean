import Verif.Spec.IpaCcm
import Verif.Props.IpaClient
import Verif.Props.IpAccessBts
/-!
# C155: the CCM handler of an IPA client connection
-/
namespace Verif.IpaCcm
open Verif Verif.IpAccess
set_option maxRecDepth 10000

theorem live_ok {c : Ipa.Cli.Conn} {f : Nat} (h : Live c f) : c.gone = false ∧ c.fd = some f ∧ c.reg = true := by
  obtain ⟨hf, u, r, ops, tr, ha, hr⟩ := h
  obtain ⟨c', tr', g⟩ := Ipa.Cli.run_good (Ipa.Cli.inv_create u r) ha
  have := g.run
  rw [hr] at this
  obtain ⟨rfl, rfl⟩ := Prod.mk.inj (Except.ok.inj this)
  refine ⟨?_, hf, g.inv.reg.trans (by rw [hf]; rfl)⟩
  cases e : c.gone with
  | false => rfl
  | true => have := (g.inv.gone e).1; rw [hf] at this; cases this

/-- the connection after its socket was closed -/
theorem close_live {c : Ipa.Cli.Conn} {f : Nat} (h : Live c f) :
    Ipa.Cli.close c = .ok ({ c with timer := false, reg := false, fd := none }, [.closeFd f]) :=
  Ipa.Cli.close_some (live_ok h).1 (live_ok h).2.1 (live_ok h).2.2

theorem trx_eq (e : Env) : (if e.priv ≥ SIGN_RSL then (e.priv - SIGN_RSL) % 65536 else 0) = trxOf e.priv := by
  unfold trxOf SIGN_RSL
  by_cases h : e.priv < 2
  · rw [if_pos h, if_neg (by omega)]
  · rw [if_neg h, if_pos (by omega)]

theorem mkResp_eq (e : Env) (x : Ext) (req : List Byte) : mkResp e x req = (e, x.resp { e.dev with trx := trxOf e.priv } req) := by
  simp only [mkResp]
  rw [trx_eq]

theorem fail_live {e : Env} {f : Nat} (h : Live e.conn f) (a : List Act) :
    fail e a = .ok ({ e with conn := { e.conn with timer := false, reg := false, fd := none } }, -1, a ++ [.close [.closeFd f]]) := by
  simp only [fail, close_live h]
  rfl

theorem handle_ccm {e : Env} {f : Nat} (h : Live e.conn f) (x : Ext) (a b ty : Byte) (req : List Byte) {acts : List Act} (hp : pong e ty = .ok acts) :
    handleCcm e x (ccm a b ty req) = if x.base < 0 then fail e acts else if ty = MSGT_ID_GET then idGet e x acts req else .ok (e, 1, acts) := by
  simp only [handleCcm, ccm]
  show (if PROTO_IPACCESS ≠ PROTO_IPACCESS then _ else _) = _
  rw [if_neg (by simp)]
  show (Ipa.Cli.use e.conn >>= fun _ => pong e ty >>= fun a => _) = _
  rw [Ipa.Cli.use_ok (live_ok h).1, hp]
  rfl

theorem pong_ok {e : Env} {ty : Byte} (h : ¬ NoFsm e ty) : ∃ acts, pong e ty = .ok acts ∧ (ty ≠ 0x01 → acts = []) ∧ (∀ m, Act.close m ∉ acts) := by
  unfold pong
  by_cases ht : ty = MSGT_PONG
  · rw [if_pos ht]
    cases hl : e.line with
    | none => exact ⟨[], rfl, fun _ => rfl, by simp⟩
    | some ka =>
      cases hs : lineTs e.priv with
      | none => exact absurd ⟨ht, ka, hl, fun t e => by rw [hs] at e; cases e⟩ h
      | some t =>
        cases hk : ka t with
        | none =>
          refine absurd ⟨ht, ka, hl, fun t' e => ?_⟩ h
          rw [hs] at e; cases e; exact hk
        | some g => exact ⟨[.pong g], by simp [hk], fun n => absurd ht n, by simp⟩
  · rw [if_neg ht]
    exact ⟨[], rfl, fun _ => rfl, by simp⟩

/-- **C155**: a message of another protocol is left to the caller: the result is 0, and nothing else happens -/
theorem C155_other (e : Env) (x : Ext) (a b p : Byte) (r : List Byte) (h : p ≠ 0xfe) : handleCcm e x (a :: b :: p :: r) = .ok (e, 0, []) := by
  simp only [handleCcm]
  show (if p ≠ PROTO_IPACCESS then _ else _) = _
  exact if_pos h

example : handleCcm ⟨Ipa.Cli.create true true, 2, none, ⟨1, 2, 3, []⟩⟩ ⟨0, fun _ _ => none, 0, 0⟩ [0, 1, 0xff, 7] =
    .ok (⟨Ipa.Cli.create true true, 2, none, ⟨1, 2, 3, []⟩⟩, 0, []) := C155_other _ _ 0 1 0xff [7] (by decide)

/-- **C155**: the identification: on an ID GET one ID RESP is sent on the socket of the connection, then one ID ACK, and the result is 1.  The response
is that for the unit with the TRX number of this connection; the unit (and all else) is unchanged afterwards. -/
theorem C155_id_get {e : Env} {f : Nat} (h : Live e.conn f) (x : Ext) (a b : Byte) (req r : List Byte) (h1 : 0 ≤ x.base)
    (h2 : x.resp { e.dev with trx := trxOf e.priv } req = some r) (h3 : x.sent = r.length) (h4 : 0 < x.acked) :
    handleCcm e x (ccm a b 0x04 req) = .ok (e, 1, [.idResp (some f) r, .idAck (some f)]) := by
  have hp : pong e 0x04 = .ok [] := rfl
  rw [handle_ccm h x a b 0x04 req hp, if_neg (by omega), if_pos (show (0x04 : Byte) = MSGT_ID_GET from rfl)]
  unfold idGet
  rw [mkResp_eq, h2]
  simp only [h3, (live_ok h).2.1]
  rw [if_neg (by simp), if_neg (by omega)]
  rfl

/-- **C155**: the result of a CCM message is 1 or -1: -1 iff libosmocore reports a failure.  With 1 nothing is changed and the connection stays open.
With -1 the socket was closed, once, as the last action, and the connection is otherwise unchanged; in particular, messages queued stay queued.  The
unit is unchanged in both cases. -/
theorem C155_result {e : Env} {f : Nat} (h : Live e.conn f) (x : Ext) (a b ty : Byte) (req : List Byte) (hn : ¬ NoFsm e ty) :
    (¬ Failure e x ty req → ∃ acts, handleCcm e x (ccm a b ty req) = .ok (e, 1, acts) ∧ ∀ m, Act.close m ∉ acts) ∧
    (Failure e x ty req → ∃ acts, handleCcm e x (ccm a b ty req) =
      .ok ({ e with conn := { e.conn with timer := false, reg := false, fd := none } }, -1, acts ++ [.close [.closeFd f]]) ∧ ∀ m, Act.close m ∉ acts) := by
  obtain ⟨acts, hp, -, hc⟩ := pong_ok hn
  rw [handle_ccm h x a b ty req hp]
  by_cases hb : x.base < 0
  · rw [if_pos hb]
    exact ⟨fun n => absurd (.inl hb) n, fun _ => ⟨acts, fail_live h acts, hc⟩⟩
  · rw [if_neg hb]
    by_cases ht : ty = MSGT_ID_GET
    · rw [if_pos ht]
      unfold idGet
      rw [mkResp_eq]
      cases hr : x.resp { e.dev with trx := trxOf e.priv } req with
      | none => exact ⟨fun n => absurd (.inr ⟨ht, .inl hr⟩) n, fun _ => ⟨acts, fail_live h acts, hc⟩⟩
      | some r =>
        simp only
        by_cases hs : x.sent ≠ (r.length : Int)
        · rw [if_pos hs]
          exact ⟨fun n => absurd (.inr ⟨ht, .inr (.inl ⟨r, hr, hs⟩)⟩) n, fun _ => ⟨_, fail_live h _, by simpa using hc⟩⟩
        · rw [if_neg hs]
          by_cases hk : x.acked ≤ 0
          · rw [if_pos hk]
            exact ⟨fun n => absurd (.inr ⟨ht, .inr (.inr hk)⟩) n, fun _ => ⟨_, fail_live h _, by simpa using hc⟩⟩
          · rw [if_neg hk]
            refine ⟨fun _ => ⟨_, rfl, by simpa using hc⟩, ?_⟩
            rintro (q | ⟨-, q | ⟨r', q, q'⟩ | q⟩)
            · exact absurd q hb
            · rw [hr] at q; cases q
            · rw [hr] at q; cases q; exact absurd q' hs
            · exact absurd q hk
    · rw [if_neg ht]
      refine ⟨fun _ => ⟨acts, rfl, hc⟩, ?_⟩
      rintro (q | ⟨q, -⟩)
      · exact absurd q hb
      · exact absurd q ht

/-- **C155**: only an ID GET is answered: for every other CCM message no ID RESP and no ID ACK is sent by the handler -/
theorem C155_silent {e : Env} {f : Nat} (h : Live e.conn f) (x : Ext) (a b ty : Byte) (req : List Byte) (hn : ¬ NoFsm e ty) (ht : ty ≠ 0x04) :
    ∃ e' rc acts, handleCcm e x (ccm a b ty req) = .ok (e', rc, acts) ∧ (∀ fd m, Act.idResp fd m ∉ acts) ∧ ∀ fd, Act.idAck fd ∉ acts := by
  obtain ⟨acts, hp, h1, -⟩ := pong_ok hn
  have hq : (∀ fd m, Act.idResp fd m ∉ acts) ∧ ∀ fd, Act.idAck fd ∉ acts := by
    unfold pong at hp
    split at hp
    · split at hp
      · cases hp; simp
      · split at hp
        · cases hp
        · split at hp
          · cases hp
          · cases hp; simp
    · cases hp; simp
  rw [handle_ccm h x a b ty req hp, if_neg (show ¬ ty = MSGT_ID_GET from ht)]
  by_cases hb : x.base < 0
  · rw [if_pos hb, fail_live h]
    exact ⟨_, _, _, rfl, by simpa using hq.1, by simpa using hq.2⟩
  · rw [if_neg hb]
    exact ⟨_, _, _, rfl, hq.1, hq.2⟩

/-- **C155**: each connection of a BTS has its own identity: OML is TRX 0, the RSL of TRX `n` is TRX `n`; and a PONG reaches the keepalive FSM of the time slot of
the connection (0 for OML, 1 + `n` for the RSL of TRX `n`), and no other -/
theorem C155_slot {e : Env} {f : Nat} (h : Live e.conn f) {ka : Nat → Option Nat} (hl : e.line = some ka) (x : Ext) (a b : Byte) (req : List Byte) (hb : 0 ≤ x.base) :
    (e.priv = 1 → trxOf e.priv = 0 ∧ ∀ g, ka 0 = some g → handleCcm e x (ccm a b 0x01 req) = .ok (e, 1, [.pong g])) ∧
    (∀ n < 31, e.priv = 2 + n → trxOf e.priv = n ∧ ∀ g, ka (1 + n) = some g → handleCcm e x (ccm a b 0x01 req) = .ok (e, 1, [.pong g])) := by
  have key : ∀ t, lineTs e.priv = some t → ∀ g, ka t = some g → handleCcm e x (ccm a b 0x01 req) = .ok (e, 1, [.pong g]) := by
    intro t ht g hg
    have hp : pong e 0x01 = .ok [.pong g] := by
      unfold pong
      rw [if_pos (show (0x01 : Byte) = MSGT_PONG from rfl), hl, ht]
      simp only [hg]
    rw [handle_ccm h x a b 0x01 req hp, if_neg (by omega), if_neg (by decide)]
  refine ⟨fun h1 => ⟨by rw [h1]; rfl, key 0 (by rw [h1]; rfl)⟩, ?_⟩
  intro n hn h1
  refine ⟨?_, key (1 + n) ?_⟩
  · unfold trxOf
    rw [if_neg (by omega), h1]
    omega
  · unfold lineTs
    rw [if_neg (by rw [h1]; unfold SIGN_OML; omega)]
    have : (e.priv + (4294967296 - SIGN_RSL)) % 4294967296 = n := by
      rw [h1]; unfold SIGN_RSL; omega
    rw [this]
    exact if_pos (show 1 + n < NUM_TS by unfold NUM_TS; omega)

/-- **C155**, end to end: the RSL connection of TRX `n` of a BTS, identified as this handler identifies it, is at the BSC on the RSL time slot of TRX `n` -/
theorem C155_same_slot {n : Nat} (hn : n < 31)
    {kap' pcap' : Bool} {ops' : List Bsc.Op} {v v' : Bsc.W} {acts' a' : List Bsc.Act} (h' : Bsc.run (Bsc.init kap' pcap') ops' = .ok (v, acts'))
    {c : Bsc.Conn} (hc : c ∈ v.conns) (hp : (v.ts c.line c.ts).priv = SIGN_RSL) {nl : Nat} (hnl : nl ≠ c.line)
    (hb : Bsc.step v (.idResp c.id (trxOf (2 + n)) (some nl)) = .ok (v', a')) : (v'.ts nl (1 + n)).conn = some c.id := by
  have ht : trxOf (2 + n) = n := by unfold trxOf; rw [if_neg (by omega)]; omega
  rw [ht] at hb
  obtain ⟨I, -, -⟩ := Bsc.reach h'
  simp only [Bsc.step, Bsc.idResp, bind, Except.bind, Bsc.getConn_mem I hc] at hb
  split at hb
  · simp at hb
  · rw [if_neg (by rw [hp]; decide), if_pos hp, if_neg hnl] at hb
    obtain ⟨nt, hnt, hr⟩ := Bts.bsc_attach I hc hnl hb
    unfold rslTs at hnt
    rw [if_pos (show 1 + n < NUM_TS by unfold NUM_TS; omega)] at hnt
    cases hnt
    exact hr

/-- **C155** (no crash), in part: a CCM message that has a message type, on a connection whose line (if it has one) has a keepalive FSM for it if it is a PONG, is handled without a fault -/
theorem C155_safe_partial {e : Env} {f : Nat} (h : Live e.conn f) (x : Ext) (a b ty : Byte) (req : List Byte) (hn : ¬ NoFsm e ty) :
    ∃ r, handleCcm e x (ccm a b ty req) = .ok r := by
  by_cases hF : Failure e x ty req
  · obtain ⟨acts, q, -⟩ := (C155_result h x a b ty req hn).2 hF
    exact ⟨_, q⟩
  · obtain ⟨acts, q, -⟩ := (C155_result h x a b ty req hn).1 hF
    exact ⟨_, q⟩

/-- **C155 violated**: a PONG on a connection with a line and without a keepalive FSM follows a null pointer, in every state -/
theorem C155_pong_violated {e : Env} {f : Nat} (h : Live e.conn f) (x : Ext) (a b : Byte) (req : List Byte) (hn : NoFsm e 0x01) :
    handleCcm e x (ccm a b 0x01 req) = .error .badptr := by
  obtain ⟨-, ka, hl, hk⟩ := hn
  have hp : pong e 0x01 = .error .badptr := by
    unfold pong
    rw [if_pos (show (0x01 : Byte) = MSGT_PONG from rfl), hl]
    cases hs : lineTs e.priv with
    | none => rfl
    | some t => simp only [hk t hs]
  simp only [handleCcm, ccm]
  show (if PROTO_IPACCESS ≠ PROTO_IPACCESS then _ else _) = _
  rw [if_neg (by simp)]
  show (Ipa.Cli.use e.conn >>= fun _ => pong e 0x01 >>= fun a => _) = _
  rw [Ipa.Cli.use_ok (live_ok h).1, hp]
  rfl

/-- **C155 violated**: a CCM message without a message type aborts the program, in every state -/
theorem C155_empty_violated (e : Env) (x : Ext) (a b : Byte) : handleCcm e x [a, b, 0xfe] = .error .assert := rfl

/-- **C155 violated** (an identification reported as done was sent): an ID ACK of which only a part was sent is not noticed: the result is 1, and the
stream of the connection continues after a part of a message -/
theorem C155_short_ack_violated {e : Env} {f : Nat} (h : Live e.conn f) (a b : Byte) (req r : List Byte) (n : Int) (h1 : 0 < n) (h2 : n < 4) :
    handleCcm e ⟨0, fun _ _ => some r, r.length, n⟩ (ccm a b 0x04 req) = .ok (e, 1, [.idResp (some f) r, .idAck (some f)]) :=
  C155_id_get h _ a b req r (by show (0 : Int) ≤ 0; omega) rfl rfl h1

/-- **C155 violated** (messages queued on a connection are sent, or stay queued): a read callback that returns the result of the handler as its own
loses a queued message if the handler failed: -1 is not -EBADF, thus the library goes on writing, to a socket that was closed -/
theorem C155_queue_violated {e e' : Env} {f : Nat} (h : Live e.conn f) (x : Ext) (a b ty : Byte) (req : List Byte) (hn : ¬ NoFsm e ty) (hF : Failure e x ty req)
    {rc : Int} {acts : List Act} (hr : handleCcm e x (ccm a b ty req) = .ok (e', rc, acts)) {g : Nat} {snd : Ipa.Cli.Snd} {fs : List Ipa.Cli.Frame}
    (hfr : e.conn.frames = .afterRead g true snd :: fs) {m : Ipa.Msg} {q : List Ipa.Msg} (hq : e.conn.queue = m :: q) :
    ∃ c', Ipa.Cli.cbReturn e'.conn rc = .ok (c', [.sendTo none m, .free m]) ∧ c'.queue = q := by
  obtain ⟨acts', k, -⟩ := (C155_result h x a b ty req hn).2 hF
  rw [k] at hr
  obtain ⟨h1, hr2⟩ := Prod.mk.inj (Except.ok.inj hr)
  obtain ⟨h2, -⟩ := Prod.mk.inj hr2
  subst h1 h2
  obtain ⟨hg, -, -⟩ := live_ok h
  simp only [Ipa.Cli.cbReturn, hfr, Ipa.Cli.writePart]
  rw [if_pos (by decide)]
  simp only [Ipa.Cli.write, Ipa.Cli.use, hg, hq, Ipa.Cli.bind_ok, Bool.false_eq_true, if_false]
  cases snd <;> exact ⟨_, rfl, rfl⟩

/-! ### The hypotheses are met -/

/-- a client connects, a message is queued, and a message is received: its read callback runs -/
def hist : List Ipa.Cli.Op :=
  [.open2 30 (.ok 7) true, .fd false true false .again (.count 0), .cbReturn 0, .send ⟨1, [1, 2]⟩, .fd true true false (.msg ⟨2, ccm 0 1 0x04 []⟩) (.count 2)]

def theConn : Ipa.Cli.Conn :=
  { fd := some 7, reg := true, wr := true, timer := false, state := .connected, queue := [⟨1, [1, 2]⟩], updown := true, readCb := true,
    frames := [.afterRead 1 true (.count 2)], gone := false, gen := 1 }

theorem hist_run : ∃ tr, Ipa.Cli.run (Ipa.Cli.create true true) hist = .ok (theConn, tr) := ⟨_, rfl⟩

theorem hist_adm : Ipa.Cli.AdmRun (Ipa.Cli.create true true) hist := by
  refine ⟨rfl, ?_⟩
  intro c a h; cases h
  refine ⟨⟨rfl, rfl, fun _ => rfl⟩, ?_⟩
  intro c a h; cases h
  refine ⟨⟨.done, [], rfl, by intro g wr snd h; cases h⟩, ?_⟩
  intro c a h; cases h
  refine ⟨rfl, ?_⟩
  intro c a h; cases h
  refine ⟨⟨rfl, rfl, fun _ => rfl⟩, ?_⟩
  intro c a h; cases h
  trivial

theorem theConn_live : Live theConn 7 := ⟨rfl, true, true, hist, hist_run.choose, hist_adm, hist_run.choose_spec⟩

/-- the RSL connection of TRX 2; the time slots 0 and 3 have keepalive FSMs -/
def theEnv : Env := ⟨theConn, 4, some (fun t => if t = 0 then some 10 else if t = 3 then some 13 else none), ⟨1800, 0, 0, []⟩⟩

/-- a response that says the TRX number -/
def theExt : Ext := ⟨0, fun d _ => some [0, 5, 0xfe, 0x05, BitVec.ofNat 8 d.trx], 5, 4⟩

example : handleCcm theEnv theExt (ccm 0 1 0x04 [1, 8]) = .ok (theEnv, 1, [.idResp (some 7) [0, 5, 0xfe, 5, 2], .idAck (some 7)]) :=
  C155_id_get theConn_live theExt 0 1 [1, 8] _ (by decide) rfl rfl (by decide)

example : handleCcm theEnv theExt (ccm 0 1 0x01 []) = .ok (theEnv, 1, [.pong 13]) :=
  ((C155_slot theConn_live rfl theExt 0 1 [] (by decide)).2 2 (by decide) rfl).2 13 rfl

/-- failures, and a PONG without FSM, are possible on this connection -/
example : Failure theEnv { theExt with sent := 3 } 0x04 [] ∧ ¬ Failure theEnv theExt 0x04 [] ∧ ¬ NoFsm theEnv 0x04 ∧ ¬ NoFsm theEnv 0x01 ∧ NoFsm { theEnv with priv := 5 } 0x01 := by
  refine ⟨.inr ⟨rfl, .inr (.inl ⟨_, rfl, by decide⟩)⟩, ?_, ?_, ?_, rfl, _, rfl, ?_⟩
  · rintro (q | ⟨-, q | ⟨r', q, q'⟩ | q⟩)
    · exact absurd q (by decide)
    · cases q
    · cases q; exact absurd q' (by decide)
    · exact absurd q (by decide)
  · rintro ⟨h, -⟩; exact absurd h (by decide)
  · rintro ⟨-, ka, h, h2⟩
    have h3 := h2 3 (by decide +kernel)
    cases h
    cases h3
  · intro t h; cases h; rfl

/-- the queued message of this connection is lost after a failure -/
example : ∃ e' rc acts c', handleCcm theEnv { theExt with base := -1 } (ccm 0 1 0x00 []) = .ok (e', rc, acts) ∧
    Ipa.Cli.cbReturn e'.conn rc = .ok (c', [.sendTo none ⟨1, [1, 2]⟩, .free ⟨1, [1, 2]⟩]) := by
  have hn : ¬ NoFsm theEnv 0x00 := by rintro ⟨h, -⟩; exact absurd h (by decide)
  have hF : Failure theEnv { theExt with base := -1 } 0x00 [] := .inl (by decide)
  obtain ⟨acts, k, -⟩ := (C155_result theConn_live { theExt with base := -1 } 0 1 0x00 [] hn).2 hF
  obtain ⟨c', q, -⟩ := C155_queue_violated theConn_live _ 0 1 0x00 [] hn hF k rfl rfl
  exact ⟨_, _, _, c', k, q⟩

/-- the BSC of the end-to-end theorem: the RSL of TRX 2 -/
example : trxOf (2 + 2) = 2 ∧ Bsc.check (Bsc.run (Bsc.init false false) [.omlAccept true, .linkCreate 0 0 1 0xff 0, .idResp 1 0 (some 0), .rslAccept true, .config 0 3,
      .idResp 4 (trxOf (2 + 2)) (some 0)]) (fun v _ => decide ((v.ts 0 3).conn = some 4)) = true := by
  decide +kernel

end Verif.IpaCcm
