import Verif.LineTrace
/-!
# Specification for C128 and C129
-/
namespace Verif.Trace

/-- given the trace that is configured, every packet of `P` is recorded in it, or nowhere if there is none -/
def Recorded (P : Who → Prop) : Option Nat → List Act → Prop
  | _, [] => True
  | _, .started k :: as => Recorded P (some k) as
  | _, .stopped :: as => Recorded P none as
  | cur, .packet w d :: as => (P w → d = cur.map (fun k => some (.trace k))) ∧ Recorded P cur as
  | cur, .keepalive _ :: as => Recorded P cur as

/-- operations that do not change what clones and LAPD instances share with the line while they exist -/
def Calm (w : W) : Op → Prop
  | .pcap _ _ => w.clones = []
  | .noPcap => w.clones = []
  | .lapdCreate => w.main.fd = none
  | .setKap _ => w.clones = []
  | _ => True

def CalmRun (w : W) : List Op → Prop
  | [] => True
  | op :: ops => Calm w op ∧ ∀ w' a, step w op = .ok (w', a) → CalmRun w' ops

end Verif.Trace
