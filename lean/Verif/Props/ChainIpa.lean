import Verif.Props.IpAccess
import Verif.Props.IpAccessBts
import Verif.Props.IpaKeepalive
/-!
# C160: signalling messages between BTS and BSC, end to end

The octets the BTS (BSC) gives to a connection are cut into messages by the rule of the IPA header (`splitIpa`, which is what
`osmo_stream` of libosmocore does with the octets received), and the messages are given to the BSC (BTS).
-/
set_option maxRecDepth 10000
namespace Verif.Chain.Ipa
open Verif.IpAccess
open Verif.Ipa (pushHeader splitIpa ipa_header_roundtrip)

/-- the octets that a BTS has sent on a client -/
def wireUp (c : Nat) : List Bts.Act → List Byte
  | [] => []
  | .send c' _ b :: as => if c' = c then b ++ wireUp c as else wireUp c as
  | _ :: as => wireUp c as

/-- the octets that a BSC has sent on a connection -/
def wireDown (c : Nat) : List Bsc.Act → List Byte
  | [] => []
  | .send c' _ b :: as => if c' = c then b ++ wireDown c as else wireDown c as
  | _ :: as => wireDown c as

/-- messages that can be sent: not empty, of less than 2^16 octets -/
def Fits (s : Nat × List Byte) : Prop := 0 < s.2.length ∧ s.2.length < 65536

/-! ### one message -/

theorem bts_send {w : Bts.W} (I : Bts.Inv w) {x : Bts.Cli} (hx : x ∈ w.clis) (hs : x.st = .connected) {k : Bts.SLink} (hk : k ∈ w.links)
    (ht : k.ts = x.ts) (hy : k.type = 1 ∨ k.type = 2 ∨ k.type = 3) (m : List Byte) :
    Bts.step w (.sendmsg k.id m) = .ok (w, [.send x.id k.id (pushHeader m k.tei)]) := by
  have hkn : Bts.known k = true := decide_eq_true hy
  have e : Bts.sendMsg k x m = [.send x.id k.id (pushHeader m k.tei)] := by
    simp only [Bts.sendMsg, hkn, hs, and_self, if_true]
  rw [Bts.step, Bts.sendmsg_eq I hk hx ht.symm m, e, if_neg (by simp)]

theorem flush_put {l t j : Nat} {m : List Byte} {ks : List Bsc.SLink} (hq : ∀ k ∈ ks, k.line = l → k.ts = t → k.q = [])
    (hj : ∀ k ∈ ks, k.id = j → k.line = l ∧ k.ts = t) :
    Bsc.flush l t (ks.map (fun y => if y.id == j then { y with q := y.q ++ [m] } else y)) = ks := by
  simp only [Bsc.flush, List.map_map]
  have : ∀ k ∈ ks, ((fun k : Bsc.SLink => if k.line = l ∧ k.ts = t then { k with q := [] } else k) ∘
      (fun y : Bsc.SLink => if y.id == j then { y with q := y.q ++ [m] } else y)) k = k := by
    intro k hk
    have h1 := hj k hk
    have h2 := hq k hk
    obtain ⟨id, line, ts, type, tei, sapi, q⟩ := k
    simp only at h1 h2
    simp only [Function.comp]
    by_cases e : id = j
    · obtain ⟨a, b⟩ := h1 e
      have := h2 a b
      simp [e, a, b, this]
    · have e' : (id == j) = false := by simpa using e
      simp only [e', Bool.false_eq_true, if_false]
      split
      · rename_i g
        rw [h2 g.1 g.2]
      · rfl
  rw [List.map_congr_left this, List.map_id']

theorem burst_none {l t c : Nat} {ks : List Bsc.SLink} (hq : ∀ k ∈ ks, k.line = l → k.ts = t → k.q = []) : Bsc.burst l t c ks = [] := by
  induction ks with
  | nil => rfl
  | cons k ks ih =>
    simp only [Bsc.burst]
    rw [ih (fun k' h' => hq k' (by simp [h']))]
    split
    · rename_i h; rw [hq k (by simp) h.1 h.2.1]; rfl
    · rfl

theorem burst_put {l t c : Nat} {m : List Byte} {ks : List Bsc.SLink} (hn : (ks.map Bsc.SLink.id).Nodup)
    (hq : ∀ k ∈ ks, k.line = l → k.ts = t → k.q = []) {x : Bsc.SLink} (hx : x ∈ ks) (hl : x.line = l) (ht : x.ts = t)
    (hy : x.type = 1 ∨ x.type = 2 ∨ x.type = 3) :
    Bsc.burst l t c (ks.map (fun y => if y.id == x.id then { y with q := y.q ++ [m] } else y)) = [.send c x.id (pushHeader m x.tei)] := by
  induction ks with
  | nil => cases hx
  | cons k ks ih =>
    simp only [List.map_cons, List.nodup_cons] at hn
    rcases List.mem_cons.1 hx with e | e
    · subst e
      have hr : ks.map (fun y => if y.id == x.id then { y with q := y.q ++ [m] } else y) = ks := by
        have : ∀ y ∈ ks, (if y.id == x.id then { y with q := y.q ++ [m] } else y) = y := by
          intro y hyy
          rw [if_neg]
          simp only [beq_iff_eq]
          intro e
          exact hn.1 (e ▸ List.mem_map_of_mem hyy)
        rw [List.map_congr_left this, List.map_id']
      have hb : Bsc.burst l t c ks = [] := burst_none (fun k' h' => hq k' (List.mem_cons_of_mem _ h'))
      simp only [List.map_cons, hr, Bsc.burst, hb, beq_self_eq_true, if_true]
      rw [if_pos ⟨hl, ht, hy⟩, hq x (by simp) hl ht]
      rfl
    · have hne : k.id ≠ x.id := fun e' => hn.1 (e' ▸ List.mem_map_of_mem e)
      simp only [List.map_cons]
      rw [if_neg (by simpa using hne)]
      simp only [Bsc.burst]
      rw [ih hn.2 (fun k' h' => hq k' (by simp [h'])) e]
      split
      · rename_i h; rw [hq k (by simp) h.1 h.2.1]; rfl
      · rfl

theorem bsc_send {w : Bsc.W} (I : Bsc.Inv w) (hP : Bsc.P w) {k : Bsc.SLink} (hk : k ∈ w.links) {c : Nat} (hc : (w.ts k.line k.ts).conn = some c)
    (hsg : (w.ts k.line k.ts).sign = true) (hy : k.type = 1 ∨ k.type = 2 ∨ k.type = 3) (m : List Byte) :
    Bsc.step w (.sendmsg k.id m) = .ok (w, [.send c k.id (pushHeader m k.tei)]) := by
  have hq : ∀ k' ∈ w.links, k'.line = k.line → k'.ts = k.ts → k'.q = [] := fun k' h' e1 e2 =>
    hP _ _ _ hc k' h' e1 e2
  have hj : ∀ k' ∈ w.links, k'.id = k.id → k'.line = k.line ∧ k'.ts = k.ts := by
    intro k' h' e
    have h1 := Bsc.getLink_mem I h'
    have h2 := Bsc.getLink_mem I hk
    rw [e, h2] at h1
    cases h1
    exact ⟨rfl, rfl⟩
  obtain ⟨v, hv⟩ := Bsc.getLine_ok (Bsc.link_line I hk)
  have hkn : Bsc.known k = true := (Bsc.known_iff k).2 hy
  simp only [Bsc.step, Bsc.sendmsg, bind, Except.bind, Bsc.getLink_mem I hk]
  have hv' : Bsc.getLine { w with links := w.links.map (fun y => if y.id == k.id then { y with q := y.q ++ [m] } else y) } k.line = .ok v := hv
  rw [hv']
  simp only
  rw [Bsc.writeCb_eq (w := { w with links := w.links.map (fun y => if y.id == k.id then { y with q := y.q ++ [m] } else y) }) hc hsg]
  simp only [hkn]
  rw [if_neg (by simp), flush_put hq hj, burst_put I.nk hq hk rfl rfl hy]

/-- links on one time slot with SAPI 0 have different TEIs -/
def DistinctUp (w : Bsc.W) (l t : Nat) : Prop :=
  ∀ k ∈ w.links, ∀ k' ∈ w.links, k.line = l → k.ts = t → k.sapi = 0 → k'.line = l → k'.ts = t → k'.sapi = 0 → k.tei = k'.tei → k = k'

def DistinctDown (w : Bts.W) (t : Nat) : Prop :=
  ∀ k ∈ w.links, ∀ k' ∈ w.links, k.ts = t → k.sapi = 0 → k'.ts = t → k'.sapi = 0 → k.tei = k'.tei → k = k'

theorem bsc_rx {w : Bsc.W} (I : Bsc.Inv w) {y : Bsc.Conn} (hy : y ∈ w.conns) (hsg : (w.ts y.line y.ts).sign = true)
    (hd : DistinctUp w y.line y.ts) {k : Bsc.SLink} (hk : k ∈ w.links) (h1 : k.line = y.line) (h2 : k.ts = y.ts) (h3 : k.sapi = 0) (m : List Byte) :
    Bsc.step w (.rx y.id k.tei m) = .ok (w, [.deliver k.id m]) := by
  obtain ⟨v, hv⟩ := Bsc.getLine_ok (Bsc.link_line I hk)
  rw [h1] at hv
  simp only [Bsc.step, Bsc.rx, bind, Except.bind, Bsc.getConn_mem I hy, hv, hsg, if_true]
  cases hf : w.links.find? (fun k' => decide (k'.line = y.line ∧ k'.ts = y.ts ∧ k'.sapi = 0 ∧ k'.tei = k.tei)) with
  | none =>
    have := List.find?_eq_none.1 hf k hk
    simp [h1, h2, h3] at this
  | some k' =>
    have hm := List.mem_of_find?_eq_some hf
    have hp := List.find?_some hf
    simp only [decide_eq_true_eq] at hp
    rw [hd k hk k' hm h1 h2 h3 hp.1 hp.2.1 hp.2.2.1 hp.2.2.2.symm]

theorem bts_rx {w : Bts.W} (I : Bts.Inv w) {x : Bts.Cli} (hx : x ∈ w.clis) (hd : DistinctDown w x.ts)
    {k : Bts.SLink} (hk : k ∈ w.links) (h2 : k.ts = x.ts) (h3 : k.sapi = 0) (m : List Byte) :
    Bts.step w (.rx x.id k.tei m) = .ok (w, [.deliver k.id m]) := by
  have hsg : w.sign x.ts = true := I.sg _ (by rw [I.back x hx]; simp)
  simp only [Bts.step, Bts.rx, bind, Except.bind, Bts.getCli_mem I.nc hx, hsg, if_true]
  split
  · rename_i hf
    have := List.find?_eq_none.1 hf k hk
    simp [h2, h3] at this
  · rename_i k' hf
    have hm := List.mem_of_find?_eq_some hf
    have hp := List.find?_some hf
    simp only [decide_eq_true_eq] at hp
    rw [hd k hk k' hm h2 h3 hp.1 hp.2.1 hp.2.2.symm]

/-! ### end to end -/

/-- **C160**, up-link: whatever messages the application of a BTS sends on the signalling links of a time slot whose client is
connected, in every reachable state: what is sent on this client, cut into messages and received by a BSC (in any reachable state)
on a connection whose time slot has links with the same TEIs (`peer`), is delivered there: every message once, unchanged, in the order
in which they were sent, on the link with the TEI of the sending link; neither side changes its state. -/
theorem C160_uplink {kap pcap cf kap' pcap' : Bool} {ops : List Bts.Op} {ops' : List Bsc.Op} {w : Bts.W} {v : Bsc.W} {acts : List Bts.Act}
    {acts' : List Bsc.Act} (h : Bts.run (Bts.init kap pcap cf) ops = .ok (w, acts)) (h' : Bsc.run (Bsc.init kap' pcap') ops' = .ok (v, acts'))
    {x : Bts.Cli} (hx : x ∈ w.clis) (hs : x.st = .connected) {y : Bsc.Conn} (hy : y ∈ v.conns) (hsg : (v.ts y.line y.ts).sign = true)
    (hd : DistinctUp v y.line y.ts) (peer : Nat → Nat) (sends : List (Nat × List Byte))
    (hl : ∀ s ∈ sends, Fits s ∧ ∃ k ∈ w.links, k.id = s.1 ∧ k.ts = x.ts ∧ (k.type = 1 ∨ k.type = 2 ∨ k.type = 3) ∧ k.tei ≠ 0xfe ∧ k.tei ≠ 0xee ∧
      ∃ k' ∈ v.links, k'.id = peer s.1 ∧ k'.line = y.line ∧ k'.ts = y.ts ∧ k'.sapi = 0 ∧ k'.tei = k.tei) :
    ∃ sent msgs, Bts.run w (sends.map fun s => .sendmsg s.1 s.2) = .ok (w, sent) ∧
      splitIpa sends.length (wireUp x.id sent) = some msgs ∧
      Bsc.run v (msgs.map fun m => .rx y.id m.1 m.2) = .ok (v, sends.map fun s => .deliver (peer s.1) s.2) := by
  have I := Bts.reach h
  obtain ⟨J, -, -⟩ := Bsc.reach h'
  have key : ∃ (sent : _) (msgs : List (Byte × List Byte)), Bts.run w (sends.map fun s => .sendmsg s.1 s.2) = .ok (w, sent) ∧ (∀ m ∈ msgs, m.2.length < 65536) ∧
      msgs.length = sends.length ∧ wireUp x.id sent = msgs.flatMap (fun m => pushHeader m.2 m.1) ∧
      Bsc.run v (msgs.map fun m => .rx y.id m.1 m.2) = .ok (v, sends.map fun s => .deliver (peer s.1) s.2) := by
    induction sends with
    | nil => exact ⟨[], [], rfl, by simp, rfl, rfl, rfl⟩
    | cons s sends ih =>
      obtain ⟨sent, msgs, e1, e2, e3, e4, e5⟩ := ih (fun s hs => hl s (by simp [hs]))
      obtain ⟨hf, k, hk, g1, g2, g3, -, -, k', hk', g4, g5, g6, g7, g8⟩ := hl s (by simp)
      have a1 := bts_send I hx hs hk g2 g3 s.2
      have a2 := bsc_rx J hy hsg hd hk' g5 g6 g7 s.2
      rw [g8, g4] at a2
      rw [g1] at a1
      refine ⟨_, (k.tei, s.2) :: msgs, by simp only [List.map_cons, Bts.run, bind, Except.bind, a1, e1]; rfl, ?_, by simp [e3], ?_, ?_⟩
      · intro m hm
        rcases List.mem_cons.1 hm with rfl | hm
        · exact hf.2
        · exact e2 m hm
      · simp only [List.cons_append, List.nil_append, wireUp, if_true, List.flatMap_cons, e4]
      · simp only [List.map_cons, Bsc.run, bind, Except.bind, a2, e5]; rfl
  obtain ⟨sent, msgs, e1, e2, e3, e4, e5⟩ := key
  exact ⟨sent, msgs, e1, by rw [e4]; exact ipa_header_roundtrip msgs e2 _ (by omega), e5⟩

/-- **C160**, down-link: the same from the BSC to the BTS. -/
theorem C160_downlink {kap pcap cf kap' pcap' : Bool} {ops : List Bts.Op} {ops' : List Bsc.Op} {w : Bts.W} {v : Bsc.W} {acts : List Bts.Act}
    {acts' : List Bsc.Act} (h : Bts.run (Bts.init kap pcap cf) ops = .ok (w, acts)) (h' : Bsc.run (Bsc.init kap' pcap') ops' = .ok (v, acts'))
    {x : Bts.Cli} (hx : x ∈ w.clis) {c l t : Nat} (hc : (v.ts l t).conn = some c) (hsg : (v.ts l t).sign = true)
    (hd : DistinctDown w x.ts) (peer : Nat → Nat) (sends : List (Nat × List Byte))
    (hl : ∀ s ∈ sends, Fits s ∧ ∃ k ∈ v.links, k.id = s.1 ∧ k.line = l ∧ k.ts = t ∧ (k.type = 1 ∨ k.type = 2 ∨ k.type = 3) ∧
      k.tei ≠ 0xfe ∧ k.tei ≠ 0xee ∧ ∃ k' ∈ w.links, k'.id = peer s.1 ∧ k'.ts = x.ts ∧ k'.sapi = 0 ∧ k'.tei = k.tei) :
    ∃ sent msgs, Bsc.run v (sends.map fun s => .sendmsg s.1 s.2) = .ok (v, sent) ∧
      splitIpa sends.length (wireDown c sent) = some msgs ∧
      Bts.run w (msgs.map fun m => .rx x.id m.1 m.2) = .ok (w, sends.map fun s => .deliver (peer s.1) s.2) := by
  have I := Bts.reach h
  obtain ⟨J, hP, -⟩ := Bsc.reach h'
  have key : ∃ (sent : _) (msgs : List (Byte × List Byte)), Bsc.run v (sends.map fun s => .sendmsg s.1 s.2) = .ok (v, sent) ∧ (∀ m ∈ msgs, m.2.length < 65536) ∧
      msgs.length = sends.length ∧ wireDown c sent = msgs.flatMap (fun m => pushHeader m.2 m.1) ∧
      Bts.run w (msgs.map fun m => .rx x.id m.1 m.2) = .ok (w, sends.map fun s => .deliver (peer s.1) s.2) := by
    induction sends with
    | nil => exact ⟨[], [], rfl, by simp, rfl, rfl, rfl⟩
    | cons s sends ih =>
      obtain ⟨sent, msgs, e1, e2, e3, e4, e5⟩ := ih (fun s hs => hl s (by simp [hs]))
      obtain ⟨hf, k, hk, g1, g2, g2', g3, -, -, k', hk', g4, g6, g7, g8⟩ := hl s (by simp)
      have a1 := bsc_send J hP hk (by rw [g2, g2']; exact hc) (by rw [g2, g2']; exact hsg) g3 s.2
      have a2 := bts_rx I hx hd hk' g6 g7 s.2
      rw [g8, g4] at a2
      rw [g1] at a1
      refine ⟨_, (k.tei, s.2) :: msgs, by simp only [List.map_cons, Bsc.run, bind, Except.bind, a1, e1]; rfl, ?_, by simp [e3], ?_, ?_⟩
      · intro m hm
        rcases List.mem_cons.1 hm with rfl | hm
        · exact hf.2
        · exact e2 m hm
      · simp only [List.cons_append, List.nil_append, wireDown, if_true, List.flatMap_cons, e4]
      · simp only [List.map_cons, Bts.run, bind, Except.bind, a2, e5]; rfl
  obtain ⟨sent, msgs, e1, e2, e3, e4, e5⟩ := key
  exact ⟨sent, msgs, e1, by rw [e4]; exact ipa_header_roundtrip msgs e2 _ (by omega), e5⟩

/-- both sides of an OML connection with its link (TEI 0xff), and what the theorems say of them: the hypotheses are met -/
theorem C160_example :
    Bts.check (Bts.run (Bts.init false false true) [.lineUpdate true, .connected 0, .rxCcm 0 (.idGet true true true), .linkCreate 0 1 0xff 0])
      (fun w _ => decide (w.clis = [⟨0, 0, .connected⟩]) && decide (w.links = [⟨1, 0, 1, 0xff, 0, []⟩])) = true ∧
    Bsc.check (Bsc.run (Bsc.init false false) [.omlAccept true, .linkCreate 0 0 1 0xff 0, .idResp 1 0 (some 0)])
      (fun v _ => decide (v.conns = [⟨1, 0, 0⟩]) && decide (v.links = [⟨2, 0, 0, 1, 0xff, 0, []⟩]) && (v.ts 0 0).sign &&
        decide ((v.ts 0 0).conn = some 1)) = true := by
  decide +kernel

end Verif.Chain.Ipa
