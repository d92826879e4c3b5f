import Verif.Proof.IpAccessSafe
/-!
# C59, C114-C118: the ip.access driver, time slots and the BSC role
-/
set_option maxRecDepth 10000
namespace Verif.IpAccess

/-! ### C59 -/

/-- **C59**: the RSL link of a TRX has a time slot of its own, from which the type of the link and the TRX are derived back,
and which is found by the number stored with the connection -/
theorem C59_roundtrip (trx : Nat) (h : trx < 31) :
    ∃ i, rslTs trx = some i ∧ i < 32 ∧ i ≠ omlTs ∧ signType (tsNum i) = .ok SIGN_RSL ∧ trxNr (tsNum i) = .ok trx ∧
      lineTs (SIGN_RSL + trx) = some i := by
  have e : rslTs trx = some (1 + trx) := if_pos (show 1 + trx < 32 by omega)
  have hs : signType (tsNum (1 + trx)) = .ok SIGN_RSL := by
    have h1 : ¬ (tsNum (1 + trx) = 0) := by simp only [tsNum]; omega
    have h2 : ¬ (tsNum (1 + trx) = 1) := by simp only [tsNum]; omega
    rw [signType, if_neg h1, if_neg h2]
  refine ⟨1 + trx, e, by omega, by simp only [omlTs]; omega, hs, ?_, ?_⟩
  · simp only [trxNr, hs, bind, Except.bind]
    rw [if_neg (by decide)]
    simp only [tsNum, ne_eq, not_true_eq_false, if_false, Except.ok.injEq]
    omega
  · have h1 : ¬ (SIGN_RSL + trx = SIGN_OML) := by simp only [SIGN_RSL, SIGN_OML]; omega
    have h2 : (SIGN_RSL + trx + (4294967296 - SIGN_RSL)) % 4294967296 = trx := by simp only [SIGN_RSL]; omega
    rw [lineTs, if_neg h1, h2]; exact e

/-- **C59**: the OML link has a time slot that is not of any TRX -/
theorem C59_oml : signType (tsNum omlTs) = .ok SIGN_OML ∧ lineTs SIGN_OML = some omlTs ∧ ∀ trx, rslTs trx ≠ some omlTs := by
  refine ⟨rfl, rfl, ?_⟩
  intro trx
  simp only [rslTs, omlTs]
  split
  · simp
  · simp

/-- **C59**: every time slot is of exactly one link: it is the one found from its own type and TRX -/
theorem C59_slot (i : Nat) (h : i < 32) :
    ∃ s trx, signType (tsNum i) = .ok s ∧ trxNr (tsNum i) = .ok trx ∧ lineTs (s + trx) = some i ∧
      ((s = SIGN_OML ∧ trx = 0 ∧ i = omlTs) ∨ (s = SIGN_RSL ∧ rslTs trx = some i)) := by
  by_cases h0 : i = 0
  · subst h0
    exact ⟨1, 0, rfl, rfl, rfl, .inl ⟨rfl, rfl, rfl⟩⟩
  · obtain ⟨j, e1, -, -, e2, e3, e4⟩ := C59_roundtrip (i - 1) (by omega)
    have hj : j = i := by
      have : rslTs (i - 1) = some (1 + (i - 1)) := if_pos (show 1 + (i - 1) < 32 by omega)
      rw [this] at e1
      have := Option.some.inj e1
      omega
    subst hj
    exact ⟨_, _, e2, e3, e4, .inr ⟨rfl, e1⟩⟩

/-- **C59**: the numbers that are refused are those without a time slot -/
theorem C59_refused (trx : Nat) : trxRefused trx = true ↔ rslTs trx = none := by
  by_cases h : 1 + trx < NUM_TS
  · have h1 : ¬ (SIGN_RSL + trx - 1 ≥ NUM_TS) := by simp only [SIGN_RSL, NUM_TS] at h ⊢; omega
    rw [trxRefused, decide_eq_false h1, rslTs, if_pos h]; simp
  · have h1 : SIGN_RSL + trx - 1 ≥ NUM_TS := by simp only [SIGN_RSL, NUM_TS] at h ⊢; omega
    rw [trxRefused, decide_eq_true h1, rslTs, if_neg h]; simp

example : rslTs 0 = some 1 ∧ rslTs 30 = some 31 ∧ rslTs 31 = none ∧ trxNr 2 = .ok 0 ∧ trxNr 32 = .ok 30 ∧ trxNr 1 = .ok 0 := by decide

namespace Bsc

/-! ### C114 -/

/-- **C114**: in every history a line exists exactly as long as connections are attached to it or it has signalling links,
with one reference for each; the line of every connection and link exists -/
theorem C114_lines {kap pcap : Bool} {ops : List Op} {w : W} {acts : List Act} (h : run (init kap pcap) ops = .ok (w, acts)) (l : Nat) :
    (w.lines l = none ↔ attached w l = 0 ∧ linked w l = 0) ∧
    (∀ b u, w.lines l = some (b, u) → b = attached w l ∧ u = linked w l) := by
  obtain ⟨I, -, -⟩ := reach h
  rw [I.L l, tally]
  by_cases hc : attached w l + linked w l = 0
  · rw [if_pos hc]
    refine ⟨⟨fun _ => by omega, fun _ => rfl⟩, fun b u h => by simp at h⟩
  · rw [if_neg hc]
    refine ⟨⟨fun h => by simp at h, fun h => by omega⟩, ?_⟩
    intro b u h
    simp only [Option.some.injEq, Prod.mk.injEq] at h
    exact ⟨h.1.symm, h.2.symm⟩

/-- **C114**: the connection known to a time slot exists and is attached to this time slot; connections are distinct -/
theorem C114_slots {kap pcap : Bool} {ops : List Op} {w : W} {acts : List Act} (h : run (init kap pcap) ops = .ok (w, acts)) :
    (w.conns.map Conn.id).Nodup ∧ (w.links.map SLink.id).Nodup ∧ ∀ l t c, (w.ts l t).conn = some c → At w c l t := by
  obtain ⟨I, -, -⟩ := reach h
  exact ⟨I.nc, I.nk, I.T⟩

/-- a BTS with OML and the RSL connection of TRX 0; a message is sent before the RSL connection is attached -/
def normal : List Op :=
  [.omlAccept true, .linkCreate 0 0 1 0xff 0, .idResp 1 0 (some 0), .sendmsg 2 [1], .rslAccept true, .config 0 1, .linkCreate 0 1 2 0 0, .sendmsg 5 [2],
   .idResp 4 0 (some 0), .rx 4 0 [7], .sendmsg 5 [3]]

def check (r : M (W × List Act)) (p : W → List Act → Bool) : Bool := match r with | .ok (w, a) => p w a | .error _ => false

/-- the history is possible; afterwards line 0 has two connections and two links, line 3 is gone -/
theorem normal_run : check (run (init true true) normal) (fun w a =>
    decide (w.lines 0 = some (2, 2)) && decide (w.lines 3 = none) && decide ((w.ts 0 0).conn = some 1) && decide ((w.ts 0 1).conn = some 4) &&
    decide (a = [.ping 1, .send 1 2 [0, 1, 0xff, 1], .freed 3, .ping 4, .send 4 5 [0, 1, 0, 2], .deliver 5 [7], .send 4 5 [0, 1, 0, 3]])) = true := by
  decide +kernel

/-- everything is released again when both connections are closed and the links destroyed -/
theorem normal_end : check (run (init true true) (normal ++ [.linkDestroy 5, .closed 1, .linkDestroy 2])) (fun w _ =>
    decide (w.lines 0 = none) && w.conns.isEmpty && w.links.isEmpty) = true := by
  decide +kernel

/-- `Calm`, to be evaluated -/
def calmB (w : W) : Op → Bool
  | .omlAccept _ => true
  | .rslAccept _ => true
  | .idResp c trx up => w.conns.any (fun x => decide (x.id = c) && (match up with
      | none => true
      | some nl => decide (0 < linked w nl) && (decide ((w.ts x.line x.ts).priv ≠ 2) || decide (nl = x.line) ||
        (decide (trx < 31) && decide ((w.ts nl (1 + trx)).conn = none) && (w.ts nl (1 + trx)).sign && decide ((w.ts x.line x.ts).ka = none)))))
  | .closed c => w.conns.any (fun x => decide (x.id = c))
  | .rx c _ _ => w.conns.any (fun x => decide (x.id = c))
  | .config l _ => decide (w.lines l ≠ none)
  | .linkCreate l _ ty _ _ => decide (w.lines l ≠ none) && decide (ty = 1 ∨ ty = 2 ∨ ty = 3)
  | .linkDestroy k => w.links.any (fun x => decide (x.id = k))
  | .sendmsg k _ => w.links.any (fun x => decide (x.id = k))
  | .kaTimeout l t => decide ((w.ts l t).ka = none)

def calmRunB (w : W) : List Op → Bool
  | [] => true
  | op :: ops => calmB w op && (match step w op with | .ok (w', _) => calmRunB w' ops | .error _ => false)

theorem calmB_sound {w : W} {op : Op} (h : calmB w op = true) : Calm w op := by
  have any1 : ∀ {α : Type} {l : List α} {p : α → Prop} [DecidablePred p], l.any (fun x => decide (p x)) = true → ∃ x ∈ l, p x := by
    intro α l p _ h
    obtain ⟨x, hx, hp⟩ := List.any_eq_true.1 h
    exact ⟨x, hx, of_decide_eq_true hp⟩
  cases op with
  | omlAccept ok => trivial
  | rslAccept ok => trivial
  | closed c => exact any1 h
  | rx c p m => exact any1 h
  | config l t => exact of_decide_eq_true (p := w.lines l ≠ none) h
  | linkCreate l t ty tei sapi =>
    simp only [calmB, Bool.and_eq_true] at h
    exact ⟨of_decide_eq_true h.1, of_decide_eq_true h.2⟩
  | linkDestroy k => exact any1 h
  | sendmsg k m => exact any1 h
  | kaTimeout l t => exact of_decide_eq_true (p := (w.ts l t).ka = none) h
  | idResp c trx up =>
    obtain ⟨x, hx, hp⟩ := List.any_eq_true.1 h
    simp only [Bool.and_eq_true] at hp
    refine ⟨x, hx, of_decide_eq_true hp.1, ?_⟩
    intro nl e
    subst e
    have h2 := hp.2
    simp only [Bool.and_eq_true, Bool.or_eq_true] at h2
    refine ⟨of_decide_eq_true h2.1, fun hpr hne => ?_⟩
    rcases h2.2 with (h3 | h3) | h3
    · exact absurd hpr (of_decide_eq_true h3)
    · exact absurd (of_decide_eq_true h3) hne
    · exact ⟨of_decide_eq_true h3.1.1.1, of_decide_eq_true h3.1.1.2, h3.1.2, of_decide_eq_true h3.2⟩

theorem calmRunB_sound {ops : List Op} : ∀ {w : W}, calmRunB w ops = true → CalmRun w ops := by
  induction ops with
  | nil => intro w _; trivial
  | cons op ops ih =>
    intro w h
    simp only [calmRunB, Bool.and_eq_true] at h
    refine ⟨calmB_sound h.1, ?_⟩
    intro w' a hs
    have h2 := h.2
    rw [hs] at h2
    exact ih h2

/-- the history above, with its end, is one of those with well-behaved peers -/
theorem normal_calm : CalmRun (init true true) (normal ++ [.linkDestroy 5, .closed 1, .linkDestroy 2]) :=
  calmRunB_sound (by decide +kernel)

/-! ### C115 -/

/-- **C115** for well-behaved peers: all histories run without fault, every connection is the one that its time slot knows,
and a keepalive FSM exists only for that connection -/
theorem C115_attached_partial {kap pcap : Bool} {ops : List Op} (hc : CalmRun (init kap pcap) ops) :
    ∃ w acts, run (init kap pcap) ops = .ok (w, acts) ∧ (∀ x ∈ w.conns, (w.ts x.line x.ts).conn = some x.id) ∧
      (∀ l t c, (w.ts l t).ka = some c → (w.ts l t).conn = some c) := by
  obtain ⟨w, a, h, T⟩ := run_safe (init_inv kap pcap) (init_P kap pcap) (init_tid kap pcap) hc
  exact ⟨w, a, h, T.T.back, T.T.ka⟩

/-- a second RSL connection for the same TRX, and the first is closed -/
def twice : List Op :=
  [.omlAccept true, .linkCreate 0 0 1 0xff 0, .idResp 1 0 (some 0), .rslAccept true, .config 0 1, .linkCreate 0 1 2 0 0, .idResp 4 0 (some 0),
   .rslAccept true, .idResp 7 0 (some 0), .closed 4, .sendmsg 5 [3]]

/-- **C115 violated**: when a BTS reconnects the RSL of a TRX before the old connection is closed, the end of the old
connection detaches the new one: it still exists, belongs to the time slot, but the time slot does not know it, it has no
keepalive FSM any more and messages are not sent -/
theorem C115_reconnect_violated : check (run (init true false) twice) (fun w a =>
    decide (w.conns = [⟨1, 0, 0⟩, ⟨7, 0, 1⟩]) && decide ((w.ts 0 1).conn = none) && decide ((w.ts 0 1).ka = none) &&
    decide (sentOn 5 a = []) && decide ((w.links.map (fun k => (k.id, k.q))) = [(2, []), (5, [[3]])])) = true := by
  decide +kernel

/-! ### C116 -/

/-- **C116** for well-behaved peers: no event is an access to an object that does not exist, or an abort -/
theorem C116_safe_partial {kap pcap : Bool} {ops : List Op} (hc : CalmRun (init kap pcap) ops) :
    ∃ r, run (init kap pcap) ops = .ok r := by
  obtain ⟨w, a, h, -⟩ := C115_attached_partial hc
  exact ⟨_, h⟩

def fails (r : M (W × List Act)) (e : Fault) : Bool := match r with | .ok _ => false | .error f => decide (f = e)

/-- **C116 violated**: a unit id with a TRX number above 30 makes the BSC follow a null pointer, if the application
accepts it -/
theorem C116_trx_violated : fails (run (init false false)
    [.omlAccept true, .linkCreate 0 0 1 0xff 0, .idResp 1 0 (some 0), .rslAccept true, .idResp 4 31 (some 0)]) .badptr = true := by
  decide +kernel

/-- **C116 violated** for every such number, in every state: the BSC never survives -/
theorem C116_every_trx_violated {kap pcap : Bool} {ops : List Op} {w : W} {acts : List Act} (h : run (init kap pcap) ops = .ok (w, acts))
    {x : Conn} (hx : x ∈ w.conns) (hp : (w.ts x.line x.ts).priv = SIGN_RSL) {trx nl : Nat} (ht : 31 ≤ trx) (hl : nl ≠ x.line)
    (r : W × List Act) : step w (.idResp x.id trx (some nl)) ≠ .ok r := by
  obtain ⟨I, -, -⟩ := reach h
  intro he
  simp only [step, idResp, bind, Except.bind, getConn_mem I hx] at he
  split at he
  · simp at he
  · rw [if_neg (by rw [hp]; decide), if_pos hp, if_neg hl] at he
    obtain ⟨-, nt, hnt, -⟩ := attach_err I hx hl he
    have : rslTs trx = none := if_neg (by simp only [NUM_TS]; omega)
    rw [this] at hnt; simp at hnt

/-- **C116 violated**: a connection that was detached like in `C115_reconnect_violated` makes the BSC abort if the BTS
identifies it once more, for another line -/
theorem C116_assert_violated : fails (run (init false false)
    (twice ++ [.omlAccept true, .linkCreate 8 0 1 0xff 0, .idResp 7 0 (some 8)])) .assert = true := by
  decide +kernel

/-! ### C117 -/

/-- **C117 violated**: in every state that can be reached, the expiry of the keepalive of a connection is an access to a freed
object -/
theorem C117_timeout_violated {kap pcap : Bool} {ops : List Op} {w : W} {acts : List Act} (h : run (init kap pcap) ops = .ok (w, acts))
    {l t c : Nat} (hk : (w.ts l t).ka = some c) (r : W × List Act) : step w (.kaTimeout l t) ≠ .ok r := by
  obtain ⟨I, -, -⟩ := reach h
  obtain ⟨e, he⟩ := kaTimeout_err I hk
  intro h2
  simp only [step] at h2
  rw [he] at h2; simp at h2

/-- such a state is reached by every BTS that identifies itself while the keepalive is configured -/
theorem C117_reachable : check (run (init true false) normal) (fun w _ => decide ((w.ts 0 0).ka = some 1) && decide ((w.ts 0 1).ka = some 4)) = true := by
  decide +kernel

/-- **C117 violated**: a BTS that identifies its RSL connection once more for another line leaves an FSM behind, which is
gone when the connection is closed -/
theorem C117_dangling_violated : fails (run (init true false)
    (normal ++ [.omlAccept true, .linkCreate 6 0 1 0xff 0, .config 6 1, .linkCreate 6 1 2 0 0, .idResp 4 0 (some 6), .closed 4, .linkDestroy 5])) .badptr = true := by
  decide +kernel

/-- **C117** for well-behaved peers: a keepalive FSM only exists for the connection of its time slot, so that it ends with it -/
theorem C117_keepalive_partial {kap pcap : Bool} {ops : List Op} (hc : CalmRun (init kap pcap) ops) :
    ∃ w acts, run (init kap pcap) ops = .ok (w, acts) ∧ ∀ l t c, (w.ts l t).ka = some c → At w c l t := by
  obtain ⟨w, a, h, -, hk⟩ := C115_attached_partial hc
  exact ⟨w, a, h, fun l t c e => (reach h).1.T l t c (hk l t c e)⟩

/-! ### C118 -/

/-- **C118**: in every history, what was asked to be sent on a signalling link of a known type was sent with the IPA header,
once and in order, or is still queued -/
theorem C118_sent {kap pcap : Bool} {ops : List Op} {w : W} {acts : List Act} (h : run (init kap pcap) ops = .ok (w, acts))
    {k : SLink} (hk : k ∈ w.links) (hy : k.type = 1 ∨ k.type = 2 ∨ k.type = 3) :
    (asked k.id ops).map (framed k) = sentOn k.id acts ++ k.q.map (framed k) :=
  (reach h).2.2.k k hk ((known_iff k).2 hy)

/-- **C118**: nothing is queued while a connection is attached to the time slot -/
theorem C118_not_held {kap pcap : Bool} {ops : List Op} {w : W} {acts : List Act} (h : run (init kap pcap) ops = .ok (w, acts))
    {k : SLink} (hk : k ∈ w.links) {c : Nat} (hc : (w.ts k.line k.ts).conn = some c) : k.q = [] :=
  (reach h).2.1 _ _ _ hc k hk rfl rfl

/-- **C118**: what is sent for a link is sent on the connection attached to its time slot -/
theorem C118_channel {kap pcap : Bool} {ops : List Op} {w w' : W} {acts a : List Act} (h : run (init kap pcap) ops = .ok (w, acts))
    {op : Op} (hs : step w op = .ok (w', a)) {c j : Nat} {m : List Byte} (hm : Act.send c j m ∈ a) :
    ∃ k ∈ w'.links, k.id = j ∧ At w' c k.line k.ts := by
  obtain ⟨I, hP, -⟩ := reach h
  have G := step_good I hP hs
  obtain ⟨k, hk, e, hc⟩ := G.tx.ch c j m hm
  exact ⟨k, hk, e, G.I.T _ _ _ hc⟩

/-- **C118**: a message received on a connection is delivered once, unchanged, to a link of its time slot with that TEI and
SAPI 0, or the connection is closed -/
theorem C118_receive {kap pcap : Bool} {ops : List Op} {w w' : W} {acts a : List Act} (h : run (init kap pcap) ops = .ok (w, acts))
    {c : Nat} {p : Byte} {m : List Byte} (hs : step w (.rx c p m) = .ok (w', a)) :
    ∃ x ∈ w.conns, x.id = c ∧
      ((∃ k ∈ w.links, k.line = x.line ∧ k.ts = x.ts ∧ k.tei = p ∧ k.sapi = 0 ∧ a = [.deliver k.id m] ∧ w' = w) ∨
       (a.getLast? = some (.closed c) ∧ (∀ y ∈ w'.conns, y.id ≠ c) ∧
        ((w.ts x.line x.ts).sign = true → ∀ k ∈ w.links, k.line = x.line → k.ts = x.ts → k.sapi = 0 → k.tei ≠ p))) := by
  obtain ⟨I, -, -⟩ := reach h
  have hd : ∀ x ∈ w.conns, destroy w x.id = .ok (w', a) → a.getLast? = some (.closed x.id) ∧ ∀ y ∈ w'.conns, y.id ≠ x.id := by
    intro x hx h
    obtain ⟨y, hy, e, hk, rfl⟩ := destroy_ok I h
    have := mem_uniq I hy hx e
    subst this
    rw [destroy_eq I hy hk] at h
    have := (Prod.mk.inj (Except.ok.inj h)).2
    refine ⟨?_, ?_⟩
    · rw [← this]; exact List.getLast?_concat
    · intro z hz
      simpa using (List.mem_filter.1 hz).2
  simp only [step, rx, bind, Except.bind] at hs
  split at hs
  · simp at hs
  · rename_i x hg
    obtain ⟨hx, rfl⟩ := getConn_ok hg
    refine ⟨x, hx, rfl, ?_⟩
    split at hs
    · simp at hs
    · split at hs
      · split at hs
        · rename_i hf
          obtain ⟨h1, h2⟩ := hd x hx hs
          refine .inr ⟨h1, h2, ?_⟩
          intro _ k hk e1 e2 e3 e4
          have := List.find?_eq_none.1 hf k hk
          simp [e1, e2, e3, e4] at this
        · rename_i k hf
          have hk := List.mem_of_find?_eq_some hf
          have hp := List.find?_some hf
          simp only [decide_eq_true_eq] at hp
          cases hs
          exact .inl ⟨k, hk, hp.1, hp.2.1, hp.2.2.2, hp.2.2.1, rfl, rfl⟩
      · rename_i hns
        obtain ⟨h1, h2⟩ := hd x hx hs
        exact .inr ⟨h1, h2, fun h => absurd h hns⟩

/-- **C118 violated**: a message on a link of another type is dropped, and used after that if the line is traced -/
theorem C118_pcap_violated : fails (run (init false true) [.omlAccept true, .linkCreate 0 0 0 0xff 0, .sendmsg 2 [1]]) .badptr = true := by
  decide +kernel

/-! ### C114: where signalling links can be -/

theorem use_sign {w w' : W} {l : Nat} {db du : Int} {a : List Act} (h : use w l db du = .ok (w', a)) : w'.ts = w.ts := by
  simp only [use, bind, Except.bind] at h
  split at h
  · cases h
  · split at h <;> (cases h; rfl)

theorem setTs_sign (w : W) (l t : Nat) (x : Ts) (hx : x.sign = (w.ts l t).sign) (a b : Nat) : ((setTs w l t x).ts a b).sign = (w.ts a b).sign := by
  simp only [setTs]
  split
  · rename_i h; rw [hx, h.1, h.2]
  · rfl

theorem kaCleanup_sign {w w' : W} {l t : Nat} (h : kaCleanup w l t = .ok w') (a b : Nat) : (w'.ts a b).sign = (w.ts a b).sign := by
  simp only [kaCleanup] at h
  split at h
  · cases h; rfl
  · simp only [bind, Except.bind] at h
    split at h
    · cases h
    · cases h
      exact setTs_sign w l t _ (by rfl) _ _

theorem kaAlloc_sign {w w' : W} {l t c : Nat} {acts : List Act} (h : kaAlloc w l t c = .ok (w', acts)) (a b : Nat) :
    (w'.ts a b).sign = (w.ts a b).sign := by
  simp only [kaAlloc, bind, Except.bind] at h
  split at h
  · cases h
  · rename_i w1 h1
    split at h
    · cases h
      rw [setTs_sign _ _ _ _ (by rfl)]
      exact kaCleanup_sign h1 a b
    · cases h
      exact kaCleanup_sign h1 a b

theorem destroy_sign {w w' : W} {c : Nat} {acts : List Act} (h : destroy w c = .ok (w', acts)) (a b : Nat) :
    (w'.ts a b).sign = (w.ts a b).sign := by
  simp only [destroy, bind, Except.bind] at h
  split at h
  · cases h
  rename_i x _
  split at h
  · cases h
  rename_i r1 h1
  split at h
  · cases h
  rename_i r2 h2
  split at h
  · cases h
  rename_i w3 h3
  split at h
  · cases h
  rename_i r4 h4
  cases h
  rw [use_sign (w' := r4.1) (a := r4.2) h4]
  simp only
  rw [setTs_sign _ _ _ _ (by rfl), kaCleanup_sign h3, use_sign (w' := r2.1) (a := r2.2) h2, use_sign (w' := r1.1) (a := r1.2) h1]

theorem writeCb_sign {w w' : W} {l t : Nat} {acts : List Act} (h : writeCb w l t = .ok (w', acts)) : w'.ts = w.ts := by
  simp only [writeCb] at h
  split at h
  · cases h; rfl
  · split at h
    · cases h; rfl
    · cases h

theorem attach_sign {w w' : W} {c l t nl trx : Nat} {acts : List Act} (h : attach w c l t nl trx = .ok (w', acts)) (a b : Nat) :
    (w'.ts a b).sign = (w.ts a b).sign := by
  simp only [attach, bind, Except.bind] at h
  split at h
  · cases h
  rename_i r1 h1
  split at h
  · cases h
  rename_i nt _
  split at h
  · cases h
  split at h
  · cases h
  rename_i r2 h2
  split at h
  · cases h
  rename_i r3 h3
  split at h
  · cases h
  rename_i r4 h4
  cases h
  rw [writeCb_sign (w' := r4.1) (acts := r4.2) h4, kaAlloc_sign (w' := r3.1) (acts := r3.2) h3, use_sign (w' := r2.1) (a := r2.2) h2,
    setTs_sign _ _ _ _ (by rfl)]
  simp only
  rw [setTs_sign _ _ _ _ (by rfl), use_sign (w' := r1.1) (a := r1.2) h1]

/-- a time slot becomes a signalling one only when its line is made, as the one of OML, or when the application configures it -/
theorem step_sign {w w' : W} {op : Op} {acts : List Act} (h : step w op = .ok (w', acts)) {l t : Nat} (hs : (w'.ts l t).sign = true) :
    (w.ts l t).sign = true ∨ t = omlTs ∨ op = .config l t := by
  cases op with
  | omlAccept ok =>
    simp only [step, omlAccept] at h
    have key : ∀ (x : Nat → Nat → Ts), x = (fun a b => if a = w.next then (if b = omlTs then ⟨some (w.next + 1), SIGN_OML, none, true⟩ else noTs) else w.ts a b) →
        (x l t).sign = true → (w.ts l t).sign = true ∨ t = omlTs ∨ Op.omlAccept ok = .config l t := by
      intro x e hx
      rw [e] at hx
      simp only at hx
      split at hx
      · split at hx
        · exact .inr (.inl (by assumption))
        · cases hx
      · exact .inl hx
    split at h
    · cases h
      exact key _ rfl hs
    · rw [destroy_sign h] at hs
      exact key _ rfl hs
  | rslAccept ok =>
    simp only [step, rslAccept] at h
    have key : ∀ (x : Nat → Nat → Ts), x = (fun a b => if a = w.next then (if b = 1 then ⟨some (w.next + 1), SIGN_RSL, none, false⟩
                                                    else if b = omlTs then ⟨none, 0, none, true⟩ else noTs) else w.ts a b) →
        (x l t).sign = true → (w.ts l t).sign = true ∨ t = omlTs ∨ Op.rslAccept ok = .config l t := by
      intro x e hx
      rw [e] at hx
      simp only at hx
      split at hx
      · split at hx
        · cases hx
        · split at hx
          · exact .inr (.inl (by assumption))
          · cases hx
      · exact .inl hx
    split at h
    · cases h
      exact key _ rfl hs
    · rw [destroy_sign h] at hs
      exact key _ rfl hs
  | idResp c trx up =>
    refine .inl ?_
    simp only [step, idResp, bind, Except.bind] at h
    split at h
    · cases h
    split at h
    · cases h
    split at h
    · split at h
      · rw [← destroy_sign h]; exact hs
      · rw [← kaAlloc_sign h]; exact hs
    · split at h
      · split at h
        · rw [← destroy_sign h]; exact hs
        · split at h
          · cases h; exact hs
          · rw [← attach_sign h]; exact hs
      · cases h; exact hs
  | closed c => exact .inl (by rw [← destroy_sign h]; exact hs)
  | rx c p m =>
    refine .inl ?_
    simp only [step, rx, bind, Except.bind] at h
    split at h
    · cases h
    split at h
    · cases h
    split at h
    · split at h
      · rw [← destroy_sign h]; exact hs
      · cases h; exact hs
    · rw [← destroy_sign h]; exact hs
  | config a b =>
    simp only [step, config, bind, Except.bind] at h
    split at h
    · cases h
    cases h
    simp only [setTs] at hs
    split at hs
    · rename_i e; exact .inr (.inr (by rw [e.1, e.2]))
    · exact .inl hs
  | linkCreate a b ty tei sapi =>
    refine .inl ?_
    simp only [step, linkCreate, bind, Except.bind] at h
    split at h
    · cases h
    split at h
    · split at h
      · cases h
      · rename_i r1 h1
        cases h
        rw [← use_sign (w' := r1.1) (a := r1.2) h1]; exact hs
    · cases h; exact hs
  | linkDestroy k =>
    refine .inl ?_
    simp only [step, linkDestroy, ipaClose, bind, Except.bind] at h
    split at h
    · cases h
    split at h
    · cases h
    split at h
    · cases h
    rename_i r h1
    split at h
    · cases h
    rename_i r2 h2
    cases h
    rw [use_sign (w' := r2.1) (a := r2.2) h2] at hs
    split at h1
    · cases h1
    split at h1
    · cases h1; exact hs
    · rw [destroy_sign (w' := r.1) (acts := r.2) h1] at hs; exact hs
  | sendmsg k m =>
    refine .inl ?_
    simp only [step, sendmsg, bind, Except.bind] at h
    split at h
    · cases h
    split at h
    · cases h
    split at h
    · cases h
    rename_i r h1
    split at h
    · cases h
    · cases h
      rw [writeCb_sign h1] at hs; exact hs
  | kaTimeout a b =>
    refine .inl ?_
    simp only [step, kaTimeout, bind, Except.bind] at h
    split at h
    · cases h; exact hs
    · split at h
      · cases h
      split at h
      · cases h
      rename_i r h1
      split at h
      · cases h
      · cases h
        rw [← destroy_sign (w' := r.1) (acts := r.2) h1]; exact hs

theorem run_sign {ops : List Op} : ∀ {w w' : W} {acts : List Act}, run w ops = .ok (w', acts) → ∀ {l t : Nat}, (w'.ts l t).sign = true →
    (w.ts l t).sign = true ∨ t = omlTs ∨ .config l t ∈ ops := by
  induction ops with
  | nil => intro w w' acts h l t hs; cases h; exact .inl hs
  | cons op ops ih =>
    intro w w' acts h l t hs
    simp only [run, bind, Except.bind] at h
    split at h
    · cases h
    rename_i r1 h1
    split at h
    · cases h
    rename_i r2 h2
    cases h
    rcases ih (w' := r2.1) (acts := r2.2) h2 hs with g | g | g
    · rcases step_sign (w' := r1.1) (acts := r1.2) h1 g with k | k | k
      · exact .inl k
      · exact .inr (.inl k)
      · exact .inr (.inr (by simp [k]))
    · exact .inr (.inl g)
    · exact .inr (.inr (by simp [g]))

/-- **C114**: signalling links can only be made on the OML time slot of a line and on those the application has configured for
signalling: on all others nothing happens -/
theorem C114_sign_slots {kap pcap : Bool} {ops : List Op} {w : W} {acts : List Act} (h : run (init kap pcap) ops = .ok (w, acts))
    {l t : Nat} (ht : t ≠ omlTs) (hc : .config l t ∉ ops) (type : Nat) (tei sapi : Byte) (r : W × List Act)
    (hr : step w (.linkCreate l t type tei sapi) = .ok r) : r = (w, []) := by
  have hs : (w.ts l t).sign = false := by
    cases e : (w.ts l t).sign with
    | false => rfl
    | true =>
      rcases run_sign h e with g | g | g
      · simp [init, noTs] at g
      · exact absurd g ht
      · exact absurd g hc
  simp only [step, linkCreate, bind, Except.bind, hs] at hr
  split at hr
  · cases hr
  · exact (Except.ok.inj hr).symm

/-- such a slot exists: the slot of the RSL link of TRX 0, before the application configures it -/
example : check (run (init false false) [.omlAccept true, .linkCreate 0 1 2 0 0]) (fun w _ => w.links.isEmpty && decide (w.lines 0 = some (1, 0))) = true := by
  decide +kernel

end Bsc
end Verif.IpAccess
