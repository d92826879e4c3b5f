import Verif.Proof.IpAccessBtsRun
import Verif.Props.IpAccess
/-!
# C119-C122: the ip.access driver, BTS role
-/
set_option maxRecDepth 10000
namespace Verif.IpAccess.Bts

/-! ### C119 -/

/-- **C119**: in every history, the clients and keepalive FSMs that exist are exactly those known to the time slots, one for
each; an FSM runs only while its client is connected -/
theorem C119_exact {kap pcap cf : Bool} {ops : List Op} {w : W} {acts : List Act} (h : run (init kap pcap cf) ops = .ok (w, acts)) : Exact w :=
  exact_of (reach h)

theorem clear_mem {w : W} (I : Inv w) (t : Nat) (x : Cli) : x ∈ (clear w t).clis ↔ x ∈ w.clis ∧ x.ts ≠ t := by
  cases h : w.slot t with
  | none =>
    simp only [clear, client_none I h]
    refine ⟨fun hx => ⟨hx, ?_⟩, fun h => h.1⟩
    intro e
    have := I.back x hx
    rw [e, h] at this; simp at this
  | some c =>
    obtain ⟨y, hy, -, rfl, e2⟩ := client_some I h
    rw [clear_eq I hy e2]
    simp only [List.mem_filter, Bool.not_eq_true', beq_eq_false_iff_ne]
    refine ⟨fun ⟨hx, hn⟩ => ⟨hx, ?_⟩, fun ⟨hx, hn⟩ => ⟨hx, ?_⟩⟩
    · intro e
      have h1 := I.back x hx
      rw [e, h] at h1
      exact hn (Option.some.inj h1).symm
    · intro e
      have := nodup_inj Cli.id I.nc hx hy e
      subst this
      exact hn e2

theorem reopened_replaced {w : W} (I : Inv w) {t : Nat} (ht : t < 32) (ok : Bool) : Replaced w (reopened { w with il := true } t ok) t ok := by
  have I0 := withIl_inv I
  have hm := clear_mem I0 t
  obtain ⟨e1, e2, -, e4, -⟩ := clear_ext (w := { w with il := true }) t
  have I1 := reopened_inv I0 rfl ht ok
  cases ok with
  | false =>
    refine ⟨?_, ?_, by simp, e1⟩
    · intro x hx
      exact (hm x).trans ⟨fun h => h.1, fun h => ⟨h, hx⟩⟩
    · intro x hx e
      exact absurd e ((hm x).1 hx).2
  | true =>
    have mc : ∀ x, x ∈ (reopened { w with il := true } t true).clis ↔ x ∈ (clear { w with il := true } t).clis ∨ x = ⟨w.next, t, .connecting⟩ := by
      intro x
      show x ∈ (clear { w with il := true } t).clis ++ [⟨(clear { w with il := true } t).next, t, .connecting⟩] ↔ _
      rw [e4]; simp
    refine ⟨?_, ?_, ?_, e1⟩
    · intro x hx
      rw [mc]
      refine ⟨?_, fun h => .inl ((hm x).2 ⟨h, hx⟩)⟩
      rintro (h | rfl)
      · exact ((hm x).1 h).1
      · exact absurd rfl hx
    · intro x hx e
      rcases (mc x).1 hx with h | rfl
      · exact absurd e ((hm x).1 h).2
      · refine ⟨rfl, rfl, ?_⟩
        intro y hy
        exact Nat.ne_of_lt (I.bc y hy)
    · intro _
      refine ⟨_, (mc _).2 (.inr rfl), rfl, ?_⟩
      have hk : (clear { w with il := true } t).kap = w.kap := e2
      constructor
      · intro hp
        refine ⟨⟨w.next + 1, w.next, false⟩, ?_, rfl⟩
        show _ ∈ (clear { w with il := true } t).fsms ++ (if (clear { w with il := true } t).kap = true then [⟨(clear { w with il := true } t).next + 1, (clear { w with il := true } t).next, false⟩] else [])
        rw [if_pos (hk.trans hp), e4]
        exact List.mem_append.2 (.inr (List.mem_singleton.2 rfl))
      · rintro ⟨y, hy, e⟩
        have hy' : y ∈ (clear { w with il := true } t).fsms ++ (if (clear { w with il := true } t).kap = true then [⟨(clear { w with il := true } t).next + 1, (clear { w with il := true } t).next, false⟩] else []) := hy
        rcases List.mem_append.1 hy' with h | h
        · have := fsm_cli_lt (clear_inv I0 t).1 h
          rw [e4, e] at this
          exact absurd this (Nat.lt_irrefl _)
        · cases hp : w.kap with
          | true => rfl
          | false => rw [hk, hp] at h; simp at h

/-- **C119**: in every state, updating the line works: it replaces the client of the OML time slot, and reports whether
the new one could be opened -/
theorem C119_lineUpdate {kap pcap cf : Bool} {ops : List Op} {w : W} {acts : List Act} (h : run (init kap pcap cf) ops = .ok (w, acts)) (ok : Bool) :
    ∃ w' a, lineUpdate w ok = .ok (w', if ok then 0 else -5, a) ∧ Replaced w w' 0 ok :=
  ⟨_, _, lineUpdate_eq (reach h) ok, reopened_replaced (reach h) (by decide) ok⟩

/-- **C119**: in every state, connecting the RSL link of a TRX works: it replaces the client of its time slot, and reports
whether the new one could be opened -/
theorem C119_rslConnect {kap pcap cf : Bool} {ops : List Op} {w : W} {acts : List Act} (h : run (init kap pcap cf) ops = .ok (w, acts)) {trx : Nat} (ht : trx < 31) (ok : Bool) :
    ∃ w' a, rslConnect w trx ok = .ok (w', if ok then 0 else -5, a) ∧ Replaced w w' (1 + trx) ok := by
  have h2 : rslTs trx = some (1 + trx) := if_pos (show 1 + trx < 32 by omega)
  have h1 : trxRefused trx = false := decide_eq_false (by simp only [SIGN_RSL, NUM_TS]; omega)
  exact ⟨_, _, rslConnect_eq (reach h) h1 h2 ok, reopened_replaced (reach h) (by omega) ok⟩

/-- **C119**: in every state, closing the RSL link of a TRX removes the client of its time slot and nothing else; numbers
without a time slot are refused -/
theorem C119_rslClose {kap pcap cf : Bool} {ops : List Op} {w : W} {acts : List Act} (h : run (init kap pcap cf) ops = .ok (w, acts)) (trx : Nat) :
    (trx < 31 → ∃ w' a, rslClose w trx = .ok (w', 0, a) ∧ ∀ x, x ∈ w'.clis ↔ x ∈ w.clis ∧ x.ts ≠ 1 + trx) ∧
    (31 ≤ trx → rslClose w trx = .ok (w, -22, [])) := by
  refine ⟨fun ht => ?_, fun ht => ?_⟩
  · have h2 : rslTs trx = some (1 + trx) := if_pos (show 1 + trx < 32 by omega)
    have h1 : trxRefused trx = false := decide_eq_false (by simp only [SIGN_RSL, NUM_TS]; omega)
    exact ⟨_, _, rslClose_eq (reach h) h1 h2, clear_mem (reach h) _⟩
  · have h1 : trxRefused trx = true := decide_eq_true (by simp only [SIGN_RSL, NUM_TS]; omega)
    simp only [rslClose, h1]

/-- OML and the RSL of TRX 0 are connected, identified, and used; the OML link is lost and connected again -/
def normal : List Op :=
  [.lineUpdate true, .connected 0, .rxCcm 0 (.idGet true true true), .linkCreate 0 1 0xff 0, .sendmsg 2 [1], .rxCcm 0 (.pong true),
   .rslConnect 0 true, .connected 3, .rxCcm 3 (.idGet true true true), .linkCreate 1 2 0 0, .sendmsg 5 [2, 3], .rx 3 0 [7],
   .lost 0, .linkDestroy 2, .lineUpdate true, .connected 6]

def check (r : M (W × List Act)) (p : W → List Act → Bool) : Bool := match r with | .ok (w, a) => p w a | .error _ => false

def fails (r : M (W × List Act)) (e : Fault) : Bool := match r with | .ok _ => false | .error f => decide (f = e)

/-- the history is possible -/
theorem normal_run : check (run (init true true true) normal) (fun w a =>
    decide (w.clis = [⟨3, 1, .connected⟩, ⟨6, 0, .connected⟩]) && decide (w.fsms = [⟨4, 3, true⟩, ⟨7, 6, true⟩]) &&
    decide (a = [.opened 0, .ping 0, .idResp 0 0, .up 1, .send 0 2 [0, 1, 0xff, 1], .opened 3, .ping 3, .idResp 3 0, .up 2, .send 3 5 [0, 2, 0, 2, 3],
      .deliver 5 [7], .closed 0, .down, .opened 6, .ping 6])) = true := by
  decide +kernel

/-- **C119**: when a client is connected, a PING is sent on it if keepalive is configured and the client has a keepalive FSM, and
nothing else happens -/
theorem C119_connected {kap pcap cf : Bool} {ops : List Op} {w : W} {acts : List Act} (h : run (init kap pcap cf) ops = .ok (w, acts))
    {x : Cli} (hx : x ∈ w.clis) (hs : x.st = .connecting) :
    ∃ w' a, step w (.connected x.id) = .ok (w', a) ∧
      ((w.kap = true ∧ ∃ y ∈ w.fsms, y.cli = x.id) → a = [.ping x.id]) ∧ (¬ (w.kap = true ∧ ∃ y ∈ w.fsms, y.cli = x.id) → a = []) := by
  have I := reach h
  simp only [step, connected, bind, Except.bind, getCli_mem I.nc hx]
  rw [if_neg (by simp [hs])]
  have I1 := setSt_inv I x.id .connected (.inl rfl)
  cases hk : w.ka x.ts with
  | none =>
    have hk' : (setSt w x.id .connected).ka x.ts = none := hk
    simp only [hk']
    refine ⟨_, _, rfl, ?_, fun _ => rfl⟩
    rintro ⟨_, y, hy, e⟩
    have := fsm_ts I hx hy e
    rw [hk] at this; cases this
  | some f =>
    have hk' : (setSt w x.id .connected).ka x.ts = some f := hk
    simp only [hk']
    obtain ⟨y, hy, rfl, h2⟩ := I.ka _ _ hk
    have hg : getFsm (setSt w x.id .connected) y.id = .ok y := getFsm_mem I1.nf hy
    have hc : y.cli = x.id := by
      rw [I.back x hx] at h2; exact (Option.some.inj h2).symm
    have hm : (⟨x.id, x.ts, .connected⟩ : Cli) ∈ (setSt w x.id .connected).clis := setSt_mem.2 ⟨x, hx, by simp⟩
    have hg2 : getCli (setSt w x.id .connected) y.cli = .ok ⟨x.id, x.ts, .connected⟩ := by
      rw [hc]; exact getCli_mem (x := ⟨x.id, x.ts, .connected⟩) I1.nc hm
    have hr : y.run = false := by
      cases hr : y.run with
      | false => rfl
      | true =>
        obtain ⟨z, hz, e, es⟩ := I.run y hy hr
        have := nodup_inj Cli.id I.nc hz hx (e.trans hc)
        subst this
        rw [hs] at es; cases es
    have hkap : (setSt w x.id .connected).kap = w.kap := rfl
    simp only [hg, hr, and_true]
    by_cases hp : w.kap = true
    · rw [if_pos (by rw [hkap]; exact hp)]
      simp only [hg2]
      exact ⟨_, _, rfl, fun _ => by rw [hc], fun n => absurd ⟨hp, y, hy, hc⟩ n⟩
    · rw [if_neg (by rw [hkap]; exact hp)]
      exact ⟨_, _, rfl, fun n => absurd n.1 hp, fun _ => rfl⟩

/-- both cases occur: a client that is opened with keepalive configured, which is then switched off or not -/
example : check (run (init true false true) [.lineUpdate true, .connected 0]) (fun _ a => decide (Act.ping 0 ∈ a)) = true ∧
    check (run (init true false true) [.lineUpdate true, .setKap false, .connected 0]) (fun w a => decide (Act.ping 0 ∉ a) && decide (w.fsms.length = 1)) = true := by
  decide +kernel

/-! ### C120 -/

/-- **C120** for a well-behaved peer and application: no event is an access to an object that does not exist, or an abort -/
theorem C120_safe_partial {kap pcap cf : Bool} {ops : List Op} (hc : CalmRun (init kap pcap cf) ops) :
    ∃ r, run (init kap pcap cf) ops = .ok r := by
  obtain ⟨w, a, h⟩ := run_safe (init_inv kap pcap cf) hc
  exact ⟨_, h⟩

/-- `Calm`, to be evaluated -/
def calmB (w : W) : Op → Bool
  | .lineUpdate _ => true
  | .rslConnect trx _ => decide (trx < 31)
  | .rslClose _ => true
  | .connected c => w.clis.any (fun x => decide (x.id = c))
  | .lost c => w.clis.any (fun x => decide (x.id = c))
  | .rxCcm c m => w.clis.any (fun x => decide (x.id = c)) && decide (m ≠ .empty) && w.fsms.any (fun y => decide (y.cli = c))
  | .rx c _ _ => w.clis.any (fun x => decide (x.id = c))
  | .kaTimeout f => w.fsms.any (fun y => decide (y.id = f ∧ y.run = false))
  | .kaPing f => w.fsms.any (fun y => decide (y.id = f))
  | .linkCreate _ _ _ _ => true
  | .linkDestroy k => w.links.any (fun x => decide (x.id = k) && w.clis.any (fun c => decide (c.ts = x.ts)))
  | .sendmsg k _ => w.links.any (fun x => decide (x.id = k) && w.clis.any (fun c => decide (c.ts = x.ts ∧ c.st = .connected ∧ (x.type = 1 ∨ x.type = 2 ∨ x.type = 3))))
  | .setKap _ => true

def calmRunB (w : W) : List Op → Bool
  | [] => true
  | op :: ops => calmB w op && (match step w op with | .ok (w', _) => calmRunB w' ops | .error _ => false)

theorem any1 {α : Type} {l : List α} {p : α → Prop} [DecidablePred p] (h : l.any (fun x => decide (p x)) = true) : ∃ x ∈ l, p x := by
  obtain ⟨x, hx, hp⟩ := List.any_eq_true.1 h
  exact ⟨x, hx, of_decide_eq_true hp⟩

theorem calmB_sound {w : W} {op : Op} (h : calmB w op = true) : Calm w op := by
  cases op with
  | lineUpdate ok => trivial
  | rslConnect trx ok => exact of_decide_eq_true (p := trx < 31) h
  | rslClose trx => trivial
  | connected c => exact any1 h
  | lost c => exact any1 h
  | rxCcm c m =>
    simp only [calmB, Bool.and_eq_true] at h
    obtain ⟨x, hx, e⟩ := any1 h.1.1
    exact ⟨⟨x, hx, e, fun _ _ => any1 h.2⟩, of_decide_eq_true h.1.2⟩
  | rx c p m => exact any1 h
  | kaTimeout f => exact any1 h
  | kaPing f => exact any1 h
  | linkCreate t ty tei sapi => trivial
  | linkDestroy k =>
    obtain ⟨x, hx, hp⟩ := List.any_eq_true.1 h
    simp only [Bool.and_eq_true] at hp
    exact ⟨x, hx, of_decide_eq_true hp.1, any1 hp.2⟩
  | sendmsg k m =>
    obtain ⟨x, hx, hp⟩ := List.any_eq_true.1 h
    simp only [Bool.and_eq_true] at hp
    obtain ⟨c, hc, e1, e2⟩ := any1 hp.2
    exact ⟨x, hx, of_decide_eq_true hp.1, c, hc, e1, fun _ => e2⟩
  | setKap b => trivial

theorem calmRunB_sound {ops : List Op} : ∀ {w : W}, calmRunB w ops = true → CalmRun w ops := by
  induction ops with
  | nil => intro w _; trivial
  | cons op ops ih =>
    intro w h
    simp only [calmRunB, Bool.and_eq_true] at h
    refine ⟨calmB_sound h.1, ?_⟩
    intro w' a hs
    have h2 := h.2
    rw [hs] at h2
    exact ih h2

/-- the history above is one of those with a well-behaved peer and application -/
theorem normal_calm : CalmRun (init true true true) normal := calmRunB_sound (by decide +kernel)

/-- **C120 violated**: if the keepalive is not configured, a PONG is an access through a null pointer: for every client, in
every state without an FSM -/
theorem C120_pong_violated {w : W} {x : Cli} (hx : getCli w x.id = .ok x) (hk : w.ka x.ts = none) (base : Bool) :
    step w (.rxCcm x.id (.pong base)) = .error .badptr := by
  simp only [step, rxCcm, bind, Except.bind, hx, hk]

/-- such a state is reached by every BTS without keepalive -/
theorem C120_pong_reachable : fails (run (init false false true) [.lineUpdate true, .connected 0, .rxCcm 0 (.pong true)]) .badptr = true := by
  decide +kernel

/-- **C120 violated**: a CCM message without a message type aborts the BTS, in every state -/
theorem C120_empty_violated {w : W} {x : Cli} (hx : getCli w x.id = .ok x) : step w (.rxCcm x.id .empty) = .error .assert := by
  simp only [step, rxCcm, bind, Except.bind, hx]

/-- **C120 violated**: in every state that can be reached, the expiry of a keepalive is an access to a freed object -/
theorem C120_timeout_violated {kap pcap cf : Bool} {ops : List Op} {w : W} {acts : List Act} (h : run (init kap pcap cf) ops = .ok (w, acts))
    {y : Fsm} (hy : y ∈ w.fsms) (hr : y.run = true) : step w (.kaTimeout y.id) = .error .badptr :=
  kaTimeout_run (reach h) hy hr

/-- **C120 violated**: connecting the RSL link of a TRX without a time slot is meant to be refused, but follows a null pointer -/
theorem C120_trx_violated (w : W) {trx : Nat} (h : 31 ≤ trx) (ok : Bool) : step w (.rslConnect trx ok) = .error .badptr := by
  have h1 : trxRefused trx = true := decide_eq_true (by simp only [SIGN_RSL, NUM_TS]; omega)
  have h2 : rslTs trx = none := if_neg (by simp only [NUM_TS]; omega)
  simp only [step, rslConnect, h1, h2, noRc]

/-- **C120 violated**: after the RSL link was closed, or a new one could not be opened, using or destroying its
signalling link aborts the BTS -/
theorem C120_closed_violated :
    fails (run (init false false true) [.rslConnect 0 true, .connected 0, .linkCreate 1 2 0 0, .rslClose 0, .sendmsg 1 [1]]) .assert = true ∧
    fails (run (init false false true) [.rslConnect 0 true, .connected 0, .linkCreate 1 2 0 0, .rslClose 0, .linkDestroy 1]) .assert = true ∧
    fails (run (init false false true) [.lineUpdate true, .connected 0, .linkCreate 0 1 0xff 0, .lineUpdate false, .linkDestroy 1]) .assert = true := by
  decide +kernel

/-- **C120 violated**: a message sent while the connection is not established is used after it was freed, if the line is
traced -/
theorem C120_pcap_violated :
    fails (run (init false true true) [.lineUpdate true, .linkCreate 0 1 0xff 0, .sendmsg 1 [1]]) .badptr = true := by
  decide +kernel

/-! ### C121 -/

theorem slot_id {i : Nat} (h : i < 32) : ∃ s trx, signType (tsNum i) = .ok s ∧ trxNr (tsNum i) = .ok trx ∧ lineTs (s + trx) = some i ∧
    ((s = SIGN_OML ∧ trx = 0 ∧ i = omlTs) ∨ (s = SIGN_RSL ∧ rslTs trx = some i)) := C59_slot i h

/-- **C121**: the answer of a client to an ID GET is the number of the TRX of its own time slot (0 for OML), and the
application is told the number by which this time slot is found -/
theorem C121_identity {kap pcap cf : Bool} {ops : List Op} {w : W} {acts : List Act} (h : run (init kap pcap cf) ops = .ok (w, acts))
    {x : Cli} (hx : x ∈ w.clis) (up : Bool) :
    ∃ w' n trx b, step w (.rxCcm x.id (.idGet true true up)) = .ok (w', .idResp x.id trx :: .up n :: b) ∧ lineTs n = some x.ts ∧
      (x.ts = 0 → n = 1 ∧ trx = 0) ∧ (x.ts ≠ 0 → n = 2 + trx ∧ rslTs trx = some x.ts) ∧
      (up = true → b = [] ∧ w' = w) ∧
      (up = false → x.st ≠ .closed → b.head? = some (.closed x.id) ∧ (⟨x.id, x.ts, .closed⟩ : Cli) ∈ w'.clis) := by
  have I := reach h
  obtain ⟨s, trx, hs, ht, hl, hc⟩ := slot_id (I.rng x hx)
  have e0 : x.ts = 0 → s + trx = 1 ∧ trx = 0 := by
    intro e
    rcases hc with ⟨rfl, rfl, -⟩ | ⟨-, h2⟩
    · exact ⟨rfl, rfl⟩
    · have := (rslTs_ok h2).1; omega
  have e1 : x.ts ≠ 0 → s + trx = 2 + trx ∧ rslTs trx = some x.ts := by
    intro e
    rcases hc with ⟨-, -, h2⟩ | ⟨rfl, h2⟩
    · exact absurd h2 e
    · exact ⟨rfl, h2⟩
  cases up with
  | true =>
    refine ⟨w, s + trx, trx, [], ?_, hl, e0, e1, fun _ => ⟨rfl, rfl⟩, fun h => by simp at h⟩
    simp only [step, rxCcm, bind, Except.bind, getCli_mem I.nc hx, hs, ht, Bool.true_eq_false, if_false, if_true]
  | false =>
    refine ⟨shut w x, s + trx, trx, shutActs w x, ?_, hl, e0, e1, fun h => by simp at h, fun _ hn => ⟨?_, shut_mem I hx⟩⟩
    · simp only [step, rxCcm, bind, Except.bind, getCli_mem I.nc hx, hs, ht, cliClose_eq I hx, Bool.true_eq_false, Bool.false_eq_true, if_false, if_true]
      rfl
    · simp only [shutActs, if_neg hn]
      split <;> rfl

/-- a BSC that attaches a connection for a TRX has it on the time slot of this TRX afterwards -/
theorem bsc_attach {w w' : Bsc.W} (I : Bsc.Inv w) {x : Bsc.Conn} (hx : x ∈ w.conns) {nl trx : Nat} {a : List Bsc.Act} (hne : nl ≠ x.line)
    (h : Bsc.attach w x.id x.line x.ts nl trx = .ok (w', a)) : ∃ nt, rslTs trx = some nt ∧ (w'.ts nl nt).conn = some x.id := by
  obtain ⟨hnl, nt, hnt, hc⟩ := Bsc.attach_err I hx hne h
  refine ⟨nt, hnt, ?_⟩
  rw [Bsc.attach_eq I hx hne hnl hnt hc] at h
  simp only [bind, Except.bind] at h
  split at h
  · simp at h
  · rename_i v hv
    split at h
    · simp at h
    · rename_i v2 hv2
      cases h
      have h1 : ((Bsc.moved w x nl nt trx).ts nl nt).conn = some x.id := by simp [Bsc.moved, hne]
      have h2 : (v.1.ts nl nt).conn = some x.id := by
        obtain ⟨-, e, -⟩ := Bsc.kaAlloc_ok (w' := v.1) (a := v.2) (Bsc.moved_inv I hx hne hnl).nc hv
        rw [e]
        exact (Bsc.setTs_conn (by rfl) nl nt).trans h1
      have h3 : v2.1.ts = v.1.ts := by
        simp only [Bsc.writeCb] at hv2
        split at hv2
        · cases hv2; rfl
        · split at hv2
          · cases hv2; rfl
          · simp at hv2
      show (v2.1.ts nl nt).conn = some x.id
      rw [h3]; exact h2

/-- **C121**, end to end: the RSL connection of the time slot `i` of a BTS, identified as the BTS identifies it, is on the time slot
with the same index at the BSC -/
theorem C121_same_slot {kap pcap cf : Bool} {ops : List Op} {w : W} {acts : List Act} (h : run (init kap pcap cf) ops = .ok (w, acts))
    {x : Cli} (hx : x ∈ w.clis) (hts : x.ts ≠ 0) {w1 : W} {trx : Nat} {b : List Act}
    (hs : step w (.rxCcm x.id (.idGet true true true)) = .ok (w1, .idResp x.id trx :: b))
    {kap' pcap' : Bool} {ops' : List Bsc.Op} {v v' : Bsc.W} {acts' a' : List Bsc.Act} (h' : Bsc.run (Bsc.init kap' pcap') ops' = .ok (v, acts'))
    {c : Bsc.Conn} (hc : c ∈ v.conns) (hp : (v.ts c.line c.ts).priv = SIGN_RSL) {nl : Nat} (hnl : nl ≠ c.line)
    (hb : Bsc.step v (.idResp c.id trx (some nl)) = .ok (v', a')) : (v'.ts nl x.ts).conn = some c.id := by
  obtain ⟨w2, n, trx2, b2, e, -, -, e1, -⟩ := C121_identity h hx true
  rw [e] at hs
  have := (Prod.mk.inj (Except.ok.inj hs)).2
  injection this with this _
  injection this with _ this
  subst this
  obtain ⟨I, -, -⟩ := Bsc.reach h'
  simp only [Bsc.step, Bsc.idResp, bind, Except.bind, Bsc.getConn_mem I hc] at hb
  split at hb
  · simp at hb
  · rw [if_neg (by rw [hp]; decide), if_pos hp, if_neg hnl] at hb
    obtain ⟨nt, hnt, hr⟩ := bsc_attach I hc hnl hb
    rw [(e1 hts).2] at hnt
    cases hnt
    exact hr

/-- the RSL of TRX 2 of a BTS, and the same at a BSC -/
theorem C121_example : check (run (init false false true) [.rslConnect 2 true, .connected 0, .rxCcm 0 (.idGet true true true)])
      (fun w a => decide (w.clis = [⟨0, 3, .connected⟩]) && decide (a = [.opened 0, .idResp 0 2, .up 4])) = true ∧
    Bsc.check (Bsc.run (Bsc.init false false) [.omlAccept true, .linkCreate 0 0 1 0xff 0, .idResp 1 0 (some 0), .rslAccept true, .config 0 3,
      .idResp 4 2 (some 0)]) (fun v _ => decide ((v.ts 0 3).conn = some 4)) = true := by
  decide +kernel

/-! ### C122 -/

/-- **C122**: in every history, each message that the application sent on a signalling link was sent once with its IPA
header, in order, or dropped; nothing is queued -/
theorem C122_fates {kap pcap cf : Bool} {ops : List Op} {w : W} {acts : List Act} (h : run (init kap pcap cf) ops = .ok (w, acts))
    {k : SLink} (hk : k ∈ w.links) : k.q = [] ∧ Fates k (asked k.id ops) (outcome k.id acts) := by
  have := run_sent (init_inv kap pcap cf) (init_sent kap pcap cf) h
  exact ⟨(reach h).q k hk, this.k k hk⟩

/-- **C122**: a message is sent if the client of the time slot is connected, on this client, if the link is of a known type,
and dropped else -/
theorem C122_sent {kap pcap cf : Bool} {ops : List Op} {w : W} {acts : List Act} (h : run (init kap pcap cf) ops = .ok (w, acts))
    {j : Nat} {m : List Byte} {w' : W} {a : List Act} (hs : step w (.sendmsg j m) = .ok (w', a)) :
    w' = w ∧ ∃ k ∈ w.links, k.id = j ∧ ∃ c ∈ w.clis, c.ts = k.ts ∧
      ((c.st = .connected ∧ (k.type = 1 ∨ k.type = 2 ∨ k.type = 3) ∧ a = [.send c.id j (framed k m)]) ∨
       (¬ (c.st = .connected ∧ (k.type = 1 ∨ k.type = 2 ∨ k.type = 3)) ∧ a = [.drop j])) := by
  obtain ⟨k, hk, rfl, c, hc, e, rfl, rfl⟩ := sendmsg_ok (reach h) hs
  refine ⟨rfl, k, hk, rfl, c, hc, e, ?_⟩
  have hkn : known k = true ↔ (k.type = 1 ∨ k.type = 2 ∨ k.type = 3) := decide_eq_true_iff
  simp only [sendMsg]
  split
  · rename_i h
    exact .inl ⟨h.2, hkn.1 h.1, rfl⟩
  · rename_i h
    exact .inr ⟨fun h2 => h ⟨hkn.2 h2.2, h2.1⟩, rfl⟩

/-- **C122**: nothing but `abis_sendmsg()` sends or drops messages of links -/
theorem C122_only {kap pcap cf : Bool} {ops : List Op} {w : W} {acts : List Act} (h : run (init kap pcap cf) ops = .ok (w, acts))
    {op : Op} (hn : ∀ k m, op ≠ .sendmsg k m) {w' : W} {a : List Act} (hs : step w op = .ok (w', a)) (j : Nat) : outcome j a = [] :=
  (step_good (reach h) hs hn).silent j

/-- **C122**: a message received on a client is delivered once, unchanged, to a link of its time slot with that TEI and SAPI 0;
if there is none, the client is closed -/
theorem C122_receive {kap pcap cf : Bool} {ops : List Op} {w w' : W} {acts a : List Act} (h : run (init kap pcap cf) ops = .ok (w, acts))
    {x : Cli} (hx : x ∈ w.clis) {p : Byte} {m : List Byte} (hs : step w (.rx x.id p m) = .ok (w', a)) :
    (∃ k ∈ w.links, k.ts = x.ts ∧ k.tei = p ∧ k.sapi = 0 ∧ a = [.deliver k.id m] ∧ w' = w) ∨
    ((∀ k ∈ w.links, k.ts = x.ts → k.sapi = 0 → k.tei ≠ p) ∧ (∀ k n, Act.deliver k n ∉ a) ∧ (⟨x.id, x.ts, .closed⟩ : Cli) ∈ w'.clis) := by
  have I := reach h
  have hsg : w.sign x.ts = true := I.sg _ (by rw [I.back x hx]; simp)
  simp only [step, rx, bind, Except.bind, getCli_mem I.nc hx, hsg, if_true] at hs
  split at hs
  · rename_i hf
    rw [cliClose_eq I hx] at hs
    cases hs
    refine .inr ⟨?_, ?_, shut_mem I hx⟩
    · intro k hk e1 e2 e3
      have := List.find?_eq_none.1 hf k hk
      simp [e1, e2, e3] at this
    · intro k n hm
      simp only [shutActs] at hm
      split at hm
      · simp at hm
      · split at hm <;> simp at hm
  · rename_i k hf
    have hk := List.mem_of_find?_eq_some hf
    have hp := List.find?_some hf
    simp only [decide_eq_true_eq] at hp
    cases hs
    exact .inl ⟨k, hk, hp.1, hp.2.2, hp.2.1, rfl, rfl⟩

/-- **C119**: in every state, when the timer of the keepalive of a client expires, the next PING is sent on that client if the
keepalive is running, and nothing otherwise; nothing else changes -/
theorem C119_ping {kap pcap cf : Bool} {ops : List Op} {w : W} {acts : List Act} (h : run (init kap pcap cf) ops = .ok (w, acts))
    {y : Fsm} (hy : y ∈ w.fsms) : step w (.kaPing y.id) = .ok (w, if y.run then [.ping y.cli] else []) := by
  have I := reach h
  obtain ⟨t, -, hs⟩ := I.kb y hy
  obtain ⟨x, hx, e, -⟩ := I.slot t _ hs
  simp only [step, kaPing, bind, Except.bind, getFsm_mem I.nf hy, ← e, getCli_mem I.nc hx]
  cases hr : y.run with
  | false => simp
  | true =>
    obtain ⟨z, hz, e2, hz2⟩ := (C119_exact h).run y hy hr
    have : z = x := by
      have h1 := getCli_mem I.nc hx
      have h2 := getCli_mem I.nc hz
      rw [e2, ← e, h1] at h2
      exact (Except.ok.inj h2).symm
    subst this
    simp [hz2]

/-- a keepalive is running in the example -/
example : check (run (init true true true) (normal ++ [.kaPing 7])) (fun _ a => decide (a.getLast? = some (.ping 6))) = true := by
  decide +kernel

end Verif.IpAccess.Bts
