import Verif.Proof.DemuxRe
import Verif.Props.Demux
/-!
# C159: changing sub-channels from within the frame call-back
-/
namespace Verif.Demux.Re
open Verif.Spec
set_option maxRecDepth 4000

/-- **C159** Whatever the call-back does (activate, deactivate, re-initialise), in every valid state and for every input: there is
no access out of bounds, the state stays valid, and each frame is delivered on a sub-channel that is active at that time, as
follows from the history of what the call-back has done before. -/
theorem C159_safe_active {U : Type} (cb : Cb U) (u : U) (d : Dmx) (h : Valid d) (bs : List Byte) :
    ∃ u' d' log, demuxIn cb u d bs = .ok (u', d', log) ∧ Valid d' ∧
      (∀ pre c f post, log = pre ++ .frame c f :: post → c < 4 ∧ actAll (fun i => d.chanActiv.getLsbD i) pre c = true) ∧
      ∀ c < 4, d'.chanActiv.getLsbD c = actAll (fun i => d.chanActiv.getLsbD i) log c := by
  have hact : ∀ (a : Byte) (c : Nat), c < 4 → active a c = a.getLsbD c := by
    intro a c hc
    have : ∀ (a : Byte) (c : Fin 4), active a c = a.getLsbD c := by decide +kernel
    exact this a ⟨c, hc⟩
  obtain ⟨r, hr, p⟩ := demuxIn_part cb bs u d (fun i => d.chanActiv.getLsbD i) (fun c hc => ⟨(h c hc).1, (h c hc).2⟩)
    (fun c hc => hact _ c hc)
  refine ⟨r.1, r.2.1, r.2.2, hr, fun c hc => ⟨(p.wf c hc).len, (p.wf c hc).idx⟩, p.log, ?_⟩
  intro c hc
  rw [← hact _ c hc]
  exact p.act c hc

/-- **C159** As long as the call-back does not re-initialise, all frames are complete and begin with the alignment pattern, from
every state that histories of calls lead to. -/
theorem C159_frames {U : Type} (cb : Cb U) (u u' : U) (os : List Op) (ho : ∀ o ∈ os, o.ok) (d d' : Dmx) (elog : List Ev)
    (hr : run fresh os = .ok (d, elog)) (bs : List Byte) (log : List Ent) (h : demuxIn cb u d bs = .ok (u', d', log))
    (hn : .op .init ∉ log) : ∀ c f, .frame c f ∈ log → GoodFrame f := by
  have hi := reachable_inv os ho d elog hr
  exact (demuxIn_inv cb bs u d hi _ h (fun o ho e => hn (e ▸ ho))).2

/-- **C159** A sub-channel that the call-back does not activate, deactivate or re-initialise delivers exactly the frames it would
deliver if the call-back did nothing, whatever is done with the other sub-channels. -/
theorem C159_isolation {U : Type} (cb : Cb U) (u u' : U) (d d' : Dmx) (hv : Valid d) (bs : List Byte) (log : List Ent)
    (h : demuxIn cb u d bs = .ok (u', d', log)) {c : Nat} (hc : c < 4) (hn : ∀ e ∈ log, touches c e = false) :
    ∃ d1 log1, Demux.demuxIn d bs = .ok (d1, log1) ∧ framesOf c log = evOf c log1 ∧ d'.subch c = d1.subch c := by
  have hw : AllWF d := fun c hc => ⟨(hv c hc).1, (hv c hc).2⟩
  obtain ⟨r, h1, _, h3, _⟩ := demuxIn_eq bs d hw
  have o := demuxIn_own cb hc bs u d hw _ h hn
  exact ⟨r.1, r.2, h1, by rw [o.ev, (h3 c hc).ev], o.sub.trans (h3 c hc).sub.symm⟩

/-- the call-back that ends the call: it deactivates the sub-channel that delivered -/
def once : Cb Nat := fun n c _ => (n + 1, [.deactivate c])

/-- two frames are sent on two sub-channels; each is deactivated when its first frame is delivered -/
def twoFrames : List Byte :=
  List.replicate 8 0 ++ List.replicate 152 15 ++ List.replicate 8 0 ++ List.replicate 152 15

/-- exactly one frame of each sub-channel is delivered -/
theorem C159_example : (demuxIn once 0 { fresh with chanActiv := 3 } twoFrames).map
    (fun r => (r.1, r.2.2.map fun e => match e with | .frame c f => (c, f.length) | .op (.deactivate n) => (10 + n, 0) | .op _ => (99, 0)))
    = .ok (2, [(0, 320), (10, 0), (1, 320), (11, 0)]) := by
  decide +kernel

end Verif.Demux.Re
