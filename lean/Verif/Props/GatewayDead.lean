import Verif.Props.Gateway
/-!
# The gateway whose remote address could not be set

`init` does not use the result of `osmo_rtp_socket_connect()`: if the remote address cannot be set, both sockets stay disabled, and
the gateway runs on without ever sending or receiving a packet.
-/
namespace Verif.Gw
open Verif Verif.Trau Verif.RtpConv Verif.Spec.Trau Verif.Spec.Rtp Verif.Gw.Spec
open Verif.RaaPrime (bind_ok bind_err)

/-- both sockets are disabled -/
def Dead (g : G) : Prop := ∀ n, n = 1 ∨ n = 2 → (g.sub n).rs.disabled = true

theorem skipFrame_dead {g : G} (hg : Dead g) {n : Nat} (hn : n = 1 ∨ n = 2) : skipFrame g n = .ok (g, []) := by
  unfold skipFrame Ortp.skipped
  rw [hg n hn, if_pos rfl, set_self]
  split <;> rfl

theorem frame_dead (K : Codec) {g : G} (hg : Dead g) (hl : g.loop = false) {n : Nat} (hn : n = 1 ∨ n = 2) (w : Option (List Bool))
    (hw : ∀ b, w = some b → 321 ≤ b.length) {f0 : Frame} (h0 : f0.WF) (buf : List Bool) (alloc : Bool) :
    frameOut K g n w f0 buf alloc = .ok (g, []) := by
  cases w with
  | none => exact skipFrame_dead hg hn
  | some b =>
    have hb := hw b rfl
    obtain ⟨rc, f, g1, g2, -⟩ := decode_cases h0 hb
    simp only [frameOut, g1, bind_ok]
    by_cases hrc : rc ≠ 0
    · rw [if_pos hrc]; exact skipFrame_dead hg hn
    · rw [if_neg hrc, hl, if_neg (by decide)]
      have hrc : rc = 0 := by omega
      subst hrc
      by_cases ht : f.type ≠ .fr ∧ f.type ≠ .efr
      · rw [toRtp, if_pos ht]; exact skipFrame_dead hg hn
      · rw [toRtp, if_neg ht]
        have ht : f.type = .fr ∨ f.type = .efr := by
          by_cases h : f.type = .fr
          · exact .inl h
          · by_cases h' : f.type = .efr
            · exact .inr h'
            · exact absurd ⟨h, h'⟩ ht
        have hd := hg n hn
        rcases toRtp_cases K h0 hb g1 ht with ⟨pl, p1, p2, p3⟩ | ⟨p1, out, p2⟩
        · have e : trau2rtp K { type := f.type, twts001 := false, twts002 := false, interm16k := false } (List.replicate 35 0) f =
              .ok ((pl.length : Int), pl ++ (List.replicate 35 0).drop pl.length) := p3
          have hs : slice (pl ++ (List.replicate 35 (0 : Byte)).drop pl.length) 0 ((pl.length : Int)).toNat = .ok pl := by
            rw [slice_ok (by simp)]
            simp
          rw [e, bind_ok]
          simp only []
          rw [if_neg (by omega), if_pos (by omega), hs, bind_ok]
          simp only [Ortp.sendFrame, hd, if_true, set_self, List.map_nil]
        · have e : trau2rtp K { type := f.type, twts001 := false, twts002 := false, interm16k := false } (List.replicate 35 0) f = .ok (0, out) := p2
          rw [e, bind_ok]
          simp only []
          rw [if_neg (by omega), if_neg (by omega)]
          simp only [Ortp.skipped, hd, if_true, set_self]

theorem poll_dead (K : Codec) {g : G} (hg : Dead g) {n : Nat} (hn : n = 1 ∨ n = 2) (p : Option Ortp.Pkt) (buf : List Bool) :
    ∃ g', poll K g n p buf = .ok (g', []) ∧ Dead g' ∧ g'.loop = g.loop ∧ ∀ k, k = 1 ∨ k = 2 → (g'.sub k).rs.txTs = (g.sub k).rs.txTs := by
  refine ⟨g.set n { g.sub n with rs := { (g.sub n).rs with rxTs := (g.sub n).rs.rxTs + 160 } }, ?_, ?_, set_loop _ _ _, ?_⟩
  · simp only [poll, hg n hn, if_true, bind_ok, Ortp.pollSock, List.map_nil, List.nil_append]
  · intro k hk
    rw [sub_set g n k _ hn hk]
    by_cases h : k = n
    · rw [if_pos h]; exact hg n hn
    · rw [if_neg h]; exact hg k hk
  · intro k hk
    rw [sub_set g n k _ hn hk]
    by_cases h : k = n
    · rw [if_pos h, h]
    · rw [if_neg h]

/-- how often the queue of a sub-slot ran empty -/
def emptiesOf (n : Nat) : List Op → Nat
  | [] => 0
  | .empty m _ :: ops => if m = n then emptiesOf n ops + 1 else emptiesOf n ops
  | _ :: ops => emptiesOf n ops

theorem run_dead (K : Codec) : ∀ (ops : List Op) (g : G), Dead g → g.loop = false → (∀ op ∈ ops, OkOp op) →
    ∃ g' a, run K g ops = .ok (g', a) ∧ Dead g' ∧ (∀ k, k = 1 ∨ k = 2 → (g'.sub k).rs.txTs = (g.sub k).rs.txTs) ∧
      (∀ n x, .rtp n x ∉ a) ∧ ∀ n, (enqOf n a).length = emptiesOf n ops := by
  intro ops
  induction ops with
  | nil => intro g hg _ _; exact ⟨g, [], rfl, hg, fun _ _ => rfl, fun _ _ h => (nomatch h), fun _ => rfl⟩
  | cons op ops ih =>
    intro g hg hl ho
    have h1 := ho op List.mem_cons_self
    have h2 : ∀ o ∈ ops, OkOp o := fun o h => ho o (List.mem_cons_of_mem _ h)
    cases op with
    | frame n w f0 buf alloc =>
      obtain ⟨g', a, e, d, t, r, q⟩ := ih g hg hl h2
      exact ⟨g', a, run_cons (K := K) (op := .frame n w f0 buf alloc) (frame_dead K hg hl h1.1 w h1.2.1 h1.2.2.1 buf alloc) e, d, t, r, q⟩
    | poll n p buf =>
      obtain ⟨g1, e1, d1, l1, t1⟩ := poll_dead K hg h1.1 p buf
      obtain ⟨g', a, e, d, t, r, q⟩ := ih g1 d1 (l1.trans hl) h2
      exact ⟨g', a, run_cons (K := K) (op := .poll n p buf) e1 e, d, fun k hk => (t k hk).trans (t1 k hk), r, q⟩
    | empty n buf =>
      obtain ⟨m, m1, -, -⟩ := fill_eq K g n h1.2
      obtain ⟨g', a, e, d, t, r, q⟩ := ih g hg hl h2
      refine ⟨g', [.enq n m] ++ a, run_cons (K := K) (op := .empty n buf) m1 e, d, t, fun k x h => ?_, fun k => ?_⟩
      · rcases List.mem_cons.1 h with h | h
        · cases h
        · exact r k x h
      · by_cases hk : n = k
        · simp only [List.cons_append, List.nil_append, enqOf, emptiesOf, if_pos hk, List.length_cons, q k]
        · simp only [List.cons_append, List.nil_append, enqOf, emptiesOf, if_neg hk, q k]

/-- if the remote address cannot be set, the program starts nevertheless and does not fail; but whatever frames it receives, none is ever sent,
the clock of the time stamps stands, no packet is received, and only idle frames go to the line: one each time the queue is empty -/
theorem C171_connect_violated (K : Codec) (r1 r2 : BitVec 32) (ops : List Op) (h : ∀ op ∈ ops, OkOp op) :
    ∃ g g' a, init false r1 r2 false false = .ok g ∧ run K g ops = .ok (g', a) ∧
      (g'.sub 1).rs.txTs = r1 ∧ (g'.sub 2).rs.txTs = r2 ∧ (∀ n x, .rtp n x ∉ a) ∧ ∀ n, (enqOf n a).length = emptiesOf n ops := by
  obtain ⟨g', a, e, -, t, r, q⟩ := run_dead K ops ⟨false, ⟨Ortp.create true true r1, { type := .none, twts001 := false, twts002 := false, interm16k := false }⟩,
    ⟨Ortp.create true true r2, { type := .none, twts001 := false, twts002 := false, interm16k := false }⟩⟩
    (by rintro n (rfl | rfl) <;> rfl) rfl h
  exact ⟨_, g', a, rfl, e, t 1 (.inl rfl), t 2 (.inr rfl), r, q⟩

/-- among them a good frame, and a packet with speech -/
example : (∀ op ∈ exOps, OkOp op) ∧ emptiesOf 2 exOps = 1 ∧ emptiesOf 1 exOps = 0 := ⟨exOps_ok.1, rfl, rfl⟩

end Verif.Gw
