import Verif.Proof.Demux
/-!
# C06 – C10, C62: the sub-channel de-multiplexer
-/
namespace Verif.Demux
open Verif.Spec
open Verif.RaaPrime (bind_ok bind_err)
set_option linter.unusedSimpArgs false
set_option maxRecDepth 4000

/-- An API call on a demultiplexer. -/
inductive Op where
  | activate (subch : Int)
  | deactivate (subch : Int)
  | input (octets : List Byte)

/-- the documented domain of the API: sub-channel numbers are not negative -/
def Op.ok : Op → Prop
  | .activate n => 0 ≤ n
  | .deactivate n => 0 ≤ n
  | .input _ => True

def step (d : Dmx) : Op → M (Dmx × List Ev)
  | .activate n => do let (d, _) ← activate d n; .ok (d, [])
  | .deactivate n => do let (d, _) ← deactivate d n; .ok (d, [])
  | .input bs => demuxIn d bs

/-- a history of calls; the deliveries of all of them are concatenated -/
def run (d : Dmx) : List Op → M (Dmx × List Ev)
  | [] => .ok (d, [])
  | o :: os => do
    let (d, e) ← step d o
    let (d, e') ← run d os
    .ok (d, e ++ e')

/-- the state after `subch_demux_init` on a zeroed structure -/
def fresh : Dmx := init zeroed

/-- What the C type guarantees plus `out_idx` being a valid index. -/
def Valid (d : Dmx) : Prop :=
  ∀ c < 4, (d.subch c).outBitbuf.length = 320 ∧ (d.subch c).outIdx < 320

private theorem Valid.wf {d : Dmx} (h : Valid d) : ∀ c < 4, (d.subch c).WF :=
  fun c hc => ⟨(h c hc).1, (h c hc).2⟩

/-- what every delivered frame looks like -/
def GoodFrame (f : List Byte) : Prop :=
  f.length = 320 ∧ f.take 17 = List.replicate 16 0 ++ [1] ∧ ∀ x ∈ f, x = 0 ∨ x = 1

private theorem step_inv (d : Dmx) (o : Op) (ho : o.ok) (h : ∀ c < 4, (d.subch c).Inv) :
    ∃ r, step d o = .ok r ∧ (∀ c < 4, (r.1.subch c).Inv) ∧
      ∀ e ∈ r.2, e.1 < 4 ∧ active d.chanActiv e.1 = true ∧ GoodFrame e.2 := by
  cases o with
  | activate n =>
    simp only [Op.ok] at ho
    simp only [step, activate]
    split
    · exact ⟨_, rfl, h, by simp⟩
    · rw [if_neg (by omega)]
      exact ⟨_, rfl, h, by simp⟩
  | deactivate n =>
    simp only [Op.ok] at ho
    simp only [step, deactivate]
    split
    · exact ⟨_, rfl, h, by simp⟩
    · rw [if_neg (by omega)]
      exact ⟨_, rfl, h, by simp⟩
  | input bs =>
    obtain ⟨r, h1, h2, h3, h4, h5⟩ := demuxIn_eq bs d (fun c hc => (h c hc).toWF)
    refine ⟨r, h1, ?_, ?_⟩
    · intro c hc
      rw [(h3 c hc).sub]
      split
      · exact (runS_inv _ (h c hc) _).1
      · exact h c hc
    · intro e he
      obtain ⟨a1, a2⟩ := h5 e he
      refine ⟨a1, a2, ?_⟩
      have hev := (h3 e.1 a1).ev
      rw [if_pos a2] at hev
      have hmem : e.2 ∈ evOf e.1 r.2 := by
        simp only [evOf, List.mem_map, List.mem_filter]
        exact ⟨e, ⟨he, by simp⟩, rfl⟩
      rw [hev] at hmem
      exact (runS_inv _ (h e.1 a1) _).2 e.2 hmem

private theorem run_inv (os : List Op) : ∀ (d : Dmx), (∀ o ∈ os, o.ok) →
    (∀ c < 4, (d.subch c).Inv) →
    ∃ r, run d os = .ok r ∧ (∀ c < 4, (r.1.subch c).Inv) ∧ ∀ e ∈ r.2, e.1 < 4 ∧ GoodFrame e.2 := by
  induction os with
  | nil => intro d _ h; exact ⟨(d, []), rfl, h, by simp⟩
  | cons o os ih =>
    intro d ho h
    obtain ⟨r, h1, h2, h3⟩ := step_inv d o (ho o (by simp)) h
    obtain ⟨r', g1, g2, g3⟩ := ih r.1 (fun o' h' => ho o' (by simp [h'])) h2
    refine ⟨(r'.1, r.2 ++ r'.2), ?_, g2, ?_⟩
    · rw [run, h1]; simp only [bind_ok, g1]
    · intro e he
      rcases List.mem_append.1 he with he | he
      · exact ⟨(h3 e he).1, (h3 e he).2.2⟩
      · exact g3 e he

private theorem fresh_inv : ∀ c < 4, (fresh.subch c).Inv := by
  intro c _
  exact ⟨⟨by simp [fresh, init, TRAU_FRAME_BITS], by simp [fresh, init]⟩,
    by simp [fresh, init, zeroed]⟩

/-- **C06** No history of calls on a freshly initialised demultiplexer runs into an out-of-bounds
access (`run … = .ok …`), and every delivery is for one of the four sub-channels and carries a
complete frame that starts with the alignment pattern and consists of proper bits. -/
theorem C06_demux_frames (os : List Op) (ho : ∀ o ∈ os, o.ok) :
    ∃ d log, run fresh os = .ok (d, log) ∧ ∀ e ∈ log, e.1 < 4 ∧ GoodFrame e.2 := by
  obtain ⟨r, h1, _, h3⟩ := run_inv os fresh ho fresh_inv
  exact ⟨r.1, r.2, h1, h3⟩

/-- **C06** In every reachable state an input call delivers only on sub-channels that are active at
that time. -/
theorem C06_demux_active (os : List Op) (ho : ∀ o ∈ os, o.ok) (d : Dmx) (log : List Ev)
    (hr : run fresh os = .ok (d, log)) (bs : List Byte) :
    ∃ d' log', demuxIn d bs = .ok (d', log') ∧
      ∀ e ∈ log', d.chanActiv.getLsbD e.1 = true := by
  obtain ⟨r, h1, h2, _⟩ := run_inv os fresh ho fresh_inv
  rw [hr] at h1
  have h1' := Except.ok.inj h1
  subst h1'
  obtain ⟨r', g1, _, g3⟩ := step_inv d (.input bs) trivial h2
  refine ⟨r'.1, r'.2, g1, ?_⟩
  intro e he
  obtain ⟨a1, a2, _⟩ := g3 e he
  have hb : ∀ (a : Byte) (c : Fin 4), active a c = a.getLsbD c := by decide +kernel
  rw [← hb d.chanActiv ⟨e.1, a1⟩]
  exact a2

theorem reachable_inv (os : List Op) (ho : ∀ o ∈ os, o.ok) (d : Dmx) (log : List Ev)
    (hr : run fresh os = .ok (d, log)) : ∀ c < 4, (d.subch c).Inv := by
  obtain ⟨r, h1, h2, _⟩ := run_inv os fresh ho fresh_inv
  rw [hr] at h1
  have h1' := Except.ok.inj h1
  subst h1'
  exact h2

/-- **C06** every reachable state is valid (used as the hypothesis of the following theorems) -/
theorem C06_reachable_valid (os : List Op) (ho : ∀ o ∈ os, o.ok) (d : Dmx) (log : List Ev)
    (hr : run fresh os = .ok (d, log)) : Valid d := by
  obtain ⟨r, h1, h2, _⟩ := run_inv os fresh ho fresh_inv
  rw [hr] at h1
  have h1' := Except.ok.inj h1
  subst h1'
  exact fun c hc => ⟨(h2 c hc).len, (h2 c hc).idx⟩

/-- octets whose sub-channel 0 carries one frame: alignment, then ones -/
def demoOctets : List Byte := List.replicate 8 0 ++ List.replicate 152 3

/-- the theorem is about histories that do deliver something -/
example : (run fresh [.activate 0, .input demoOctets]).map (fun r => r.2.length) = .ok 1 := by
  decide +kernel

/-! ### C07 -/

/-- **C07** Chunking of the input is irrelevant, in any state (deliveries, final state and faults). -/
theorem C07_demux_chunking (d : Dmx) (a b : List Byte) :
    demuxIn d (a ++ b) = (do
      let (d1, e1) ← demuxIn d a
      let (d2, e2) ← demuxIn d1 b
      .ok (d2, e1 ++ e2)) := by
  induction a generalizing d with
  | nil =>
    simp only [List.nil_append, demuxIn, bind_ok]
    cases demuxIn d b <;> simp
  | cons x a ih =>
    simp only [List.cons_append, demuxIn]
    cases demuxSubs d x (List.range NR_SUBCH) with
    | error e => rfl
    | ok r =>
      simp only [bind_ok, ih]
      cases demuxIn r.1 a with
      | error e => rfl
      | ok r1 =>
        simp only [bind_ok]
        cases demuxIn r1.1 b with
        | error e => rfl
        | ok r2 => simp [bind_ok]

/-! ### C08 -/

/-- **C08** Two demultiplexers that agree on sub-channel `c` (state and activity) and receive octets
with the same bits `2c`, `2c+1` deliver the same frames on `c` and end in the same state of `c`,
whatever the other sub-channels do. -/
theorem C08_demux_isolation (c : Nat) (hc : c < 4) (d1 d2 : Dmx) (h1 : Valid d1) (h2 : Valid d2)
    (hs : d1.subch c = d2.subch c)
    (ha : d1.chanActiv.getLsbD c = d2.chanActiv.getLsbD c)
    (bs1 bs2 : List Byte) (hb : chanBits c bs1 = chanBits c bs2) :
    ∃ r1 r2, demuxIn d1 bs1 = .ok r1 ∧ demuxIn d2 bs2 = .ok r2 ∧
      evOf c r1.2 = evOf c r2.2 ∧ r1.1.subch c = r2.1.subch c := by
  obtain ⟨r1, a1, _, a3, _⟩ := demuxIn_eq bs1 d1 h1.wf
  obtain ⟨r2, b1, _, b3, _⟩ := demuxIn_eq bs2 d2 h2.wf
  have hact : ∀ (a : Byte) (c : Fin 4), active a c = a.getLsbD c := by decide +kernel
  have e1 := hact d1.chanActiv ⟨c, hc⟩
  have e2 := hact d2.chanActiv ⟨c, hc⟩
  simp only at e1 e2
  refine ⟨r1, r2, a1, b1, ?_, ?_⟩
  · rw [(a3 c hc).ev, (b3 c hc).ev, e1, e2, ha, hs, hb]
  · rw [(a3 c hc).sub, (b3 c hc).sub, e1, e2, ha, hs, hb]

/-- **C08** On an inactive sub-channel nothing is delivered and its state is not touched. -/
theorem C08_demux_inactive (c : Nat) (hc : c < 4) (d : Dmx) (h : Valid d)
    (ha : d.chanActiv.getLsbD c = false) (bs : List Byte) :
    ∃ r, demuxIn d bs = .ok r ∧ evOf c r.2 = [] ∧ r.1.subch c = d.subch c := by
  obtain ⟨r1, a1, _, a3, _⟩ := demuxIn_eq bs d h.wf
  have hact : ∀ (a : Byte) (c : Fin 4), active a c = a.getLsbD c := by decide +kernel
  have e1 := hact d.chanActiv ⟨c, hc⟩
  simp only at e1
  refine ⟨r1, a1, ?_, ?_⟩
  · rw [(a3 c hc).ev, e1, ha]; rfl
  · rw [(a3 c hc).sub, e1, ha]; rfl

/-- octets that differ but agree on sub-channel 1 -/
example : chanBits 1 [0xf3, 0x04] = chanBits 1 [0x00, 0xa7] ∧ Valid fresh :=
  ⟨by decide, C06_reachable_valid [] (by simp) fresh [] rfl⟩

/-! ### C09 -/

private theorem ub_eq : (List.map ub : List Bool → List Byte) = ubits := by
  funext l; simp [ubits, ub]

/-- **C09** Whatever state active sub-channel `c` is in (as long as fewer than 2^32 - 16 zero bits in a
row have just been received), the frames of a clean aligned stream are delivered exactly once each and
in order; at most one frame that began earlier precedes them, and none if the sub-channel was not
in the middle of a frame. -/
theorem C09_demux_delivers (c : Nat) (hc : c < 4) (d : Dmx) (h : Valid d)
    (ha : d.chanActiv.getLsbD c = true) (hz : (d.subch c).consecutiveZeros + 16 < 2 ^ 32)
    (fs : List (List Bool)) (hfs : CleanStream fs) (bs : List Byte)
    (hb : chanBits c bs = fs.flatten) :
    ∃ d' log stale, demuxIn d bs = .ok (d', log) ∧ evOf c log = stale ++ fs.map ubits ∧
      stale.length ≤ 1 ∧ ((d.subch c).inSync = false → stale = []) := by
  obtain ⟨r, a1, _, a3, _⟩ := demuxIn_eq bs d h.wf
  have hact : ∀ (a : Byte) (c : Fin 4), active a c = a.getLsbD c := by decide +kernel
  have e1 := hact d.chanActiv ⟨c, hc⟩
  simp only at e1
  obtain ⟨pre, p1, p2, p3, _⟩ := runS_stream fs [] (d.subch c) hfs.frames rfl
    (by simpa using hfs.noEmul) (h.wf c hc) hz
  refine ⟨r.1, r.2, pre, a1, ?_, p1, p2⟩
  rw [(a3 c hc).ev, e1, ha, if_pos rfl, hb, p3]
  simp only [ub_eq]

/-- a demo frame -/
def demoFrame : List Bool := List.replicate 16 false ++ List.replicate 304 true

/-- a clean stream of one frame exists and is what `demoOctets` carry -/
example : CleanStream [demoFrame] ∧ chanBits 0 demoOctets = [demoFrame].flatten := by
  refine ⟨⟨?_, ?_⟩, by decide +kernel⟩
  · intro f hf
    rw [List.mem_singleton.1 hf]
    exact ⟨by decide +kernel, by decide +kernel⟩
  · intro i ⟨h1, h2, h3⟩
    by_cases hi : i = 16
    · omega
    · exfalso
      have := h3 (i - 1) (by omega) (by omega)
      have hlt : i < 320 := by
        have hl : [demoFrame].flatten.length = 320 := by decide +kernel
        rw [← hl]; exact (List.getElem?_eq_some_iff.1 h2).1
      simp only [demoFrame, List.flatten_cons, List.flatten_nil, List.append_nil] at this
      rw [List.getElem?_append_right (by simp; omega), List.getElem?_replicate_of_lt (by simp; omega)]
        at this
      cases this

/-- The zero counter is a 32 bit variable: after 2^32 - 16 zeros (75 hours of an idle 16k sub-channel
at all-zeros) the alignment of the next frame is missed.  This is why **C09** needs its bound. -/
theorem C09_wraparound_limit :
    ∃ d : Dmx, Valid d ∧ d.chanActiv.getLsbD 0 = true ∧
      (d.subch 0).consecutiveZeros + 16 = 2 ^ 32 ∧
      (demuxIn d demoOctets).map (fun r => r.2) = .ok [] := by
  refine ⟨{ fresh with chanActiv := 1, subch := fun _ => ⟨List.replicate 320 0xff, 0, 2 ^ 32 - 16, false⟩ },
    ?_, by decide, by decide, by decide +kernel⟩
  intro c _
  exact ⟨List.length_replicate, by show 0 < 320; decide⟩

/-! ### C10 -/

/-- **C10** Sub-channel numbers ≥ 4 are refused without any effect. -/
theorem C10_activate_einval (d : Dmx) (n : Int) (hn : 4 ≤ n) :
    activate d n = .ok (d, -22) ∧ deactivate d n = .ok (d, -22) := by
  simp only [activate, deactivate]
  rw [if_pos hn, if_pos hn]
  exact ⟨rfl, rfl⟩

/-- **C10** 0..3 change exactly the activity of that sub-channel. -/
theorem C10_activate_exact (d : Dmx) (n : Nat) (hn : n < 4) :
    (∃ d', activate d n = .ok (d', 0) ∧ d'.subch = d.subch ∧
      ∀ i < 8, d'.chanActiv.getLsbD i = (d.chanActiv.getLsbD i || i == n)) ∧
    (∃ d', deactivate d n = .ok (d', 0) ∧ d'.subch = d.subch ∧
      ∀ i < 8, d'.chanActiv.getLsbD i = (d.chanActiv.getLsbD i && i != n)) := by
  have e1 : ¬ ((n : Int) ≥ 4) := by omega
  have e2 : ¬ ((n : Int) < 0) := by omega
  have h1 : ∀ (a : Byte) (n : Fin 4) (i : Fin 8),
      (a ||| ((1 : Byte) <<< n.1)).getLsbD i = (a.getLsbD i || i.1 == n.1) := by decide +kernel
  have h2 : ∀ (a : Byte) (n : Fin 4) (i : Fin 8),
      (a &&& ~~~((1 : Byte) <<< n.1)).getLsbD i = (a.getLsbD i && i.1 != n.1) := by decide +kernel
  refine ⟨⟨{ d with chanActiv := d.chanActiv ||| ((1 : Byte) <<< n) }, ?_, rfl,
      fun i hi => h1 d.chanActiv ⟨n, hn⟩ ⟨i, hi⟩⟩,
    ⟨{ d with chanActiv := d.chanActiv &&& ~~~((1 : Byte) <<< n) }, ?_, rfl,
      fun i hi => h2 d.chanActiv ⟨n, hn⟩ ⟨i, hi⟩⟩⟩
  · simp only [activate, e1, e2, if_false, Int.toNat_natCast]
  · simp only [deactivate, e1, e2, if_false, Int.toNat_natCast]

/-- A negative sub-channel number is *not* refused by the check (undefined shift). -/
theorem C10_negative_undefined (d : Dmx) (n : Int) (hn : n < 0) :
    activate d n = .error .oob ∧ deactivate d n = .error .oob := by
  have : ¬ n ≥ 4 := by omega
  simp only [activate, deactivate, this, if_false, hn, if_true, and_self]

/-! ### C62 -/

/-- **C62 (violated)** Re-initialising a demultiplexer that was in the middle of a frame does not give
a fresh one: `in_sync` survives, and the next 320 bits are delivered as a frame although no alignment
was ever seen. -/
theorem C62_reinit_violated :
    ∃ (os : List Op) (d : Dmx) (log : List Ev), (∀ o ∈ os, o.ok) ∧ run fresh os = .ok (d, log) ∧
      (run (init d) [.activate 0, .input (List.replicate 160 0xff)]).map (fun r => r.2)
        = .ok [(0, List.replicate 320 1)] ∧
      (run fresh [.activate 0, .input (List.replicate 160 0xff)]).map (fun r => r.2) = .ok [] := by
  obtain ⟨r, h1, _, _⟩ := run_inv [.activate 0, .input (List.replicate 8 0 ++ [3])] fresh
    (by simp [Op.ok]) fresh_inv
  refine ⟨_, r.1, r.2, by simp [Op.ok], h1, ?_, by decide +kernel⟩
  have : (run fresh [.activate 0, .input (List.replicate 8 0 ++ [3])] >>= fun r =>
      (run (init r.1) [.activate 0, .input (List.replicate 160 0xff)]).map (fun r => r.2))
        = .ok [(0, List.replicate 320 1)] := by decide +kernel
  rw [h1] at this
  exact this

/-- **C62 (partial)** Re-initialisation does give a fresh demultiplexer when no sub-channel is in the
middle of a frame or of an alignment pattern. -/
theorem C62_reinit_partial (d : Dmx)
    (h : ∀ c, (d.subch c).inSync = false ∧ (d.subch c).consecutiveZeros = 0) : init d = fresh := by
  simp only [init, fresh, zeroed, h]

/-- **C06** After initialisation no sub-channel is active, whatever the structure held before: nothing is
delivered until a sub-channel is activated. -/
theorem C06_init_silent (d : Dmx) (bs : List Byte) : ∃ d', demuxIn (init d) bs = .ok (d', []) := by
  have hw : ∀ c < 4, ((init d).subch c).WF := fun c _ =>
    ⟨List.length_replicate, (by decide : (0 : Nat) < 320)⟩
  obtain ⟨r, h1, _, _, _, h5⟩ := demuxIn_eq bs (init d) hw
  refine ⟨r.1, ?_⟩
  have : r.2 = [] := by
    cases e : r.2 with
    | nil => rfl
    | cons x xs =>
      obtain ⟨a, b⟩ := h5 x (by rw [e]; simp)
      have : ∀ c : Fin 4, active 0 c = false := by decide
      have g := this ⟨x.1, a⟩
      have b' : active 0 x.1 = true := b
      rw [b'] at g
      cases g
  rw [h1, ← this]

end Verif.Demux
