import Verif.Props.E1d
/-!
# C135: alarms of interfaces above 15, and of lines of other drivers
-/
set_option maxRecDepth 10000
namespace Verif.E1d

theorem shl_trunc : ∀ i : Byte, i <<< 4 = (i &&& 0xf) <<< 4 := by decide +kernel

/-- **C135** is violated for every interface above 15: its alarms are signalled exactly as if they were those of the interface whose number has the
same last four bits, on any line, to whatever lines the application has -/
theorem C135_truncated_every_violated (ports : List (Nat × Nat)) (ev : Alarm) (i l : Byte) (data : List Byte) :
    eventCb ports ev i l data = eventCb ports ev (i &&& 0xf) l data := by
  unfold eventCb
  rw [shl_trunc i]

/-- **C135** is violated whenever another line with the same port number was created before, of whatever driver: it gets every alarm of the port -/
theorem C135_first_every_violated (pre post : List (Nat × Nat)) (k n : Nat) (ev : Alarm) (i l : Byte) (data : List Byte)
    (hp : ∀ x ∈ pre, x.2 ≠ (i <<< 4 ||| l).toNat) :
    eventCb (pre ++ (k, (i <<< 4 ||| l).toNat) :: post ++ [(n, (i <<< 4 ||| l).toNat)]) ev i l data = (sigOf ev data).map (fun s => (k, s.1, s.2)) := by
  have h : portFind (pre ++ (k, (i <<< 4 ||| l).toNat) :: post ++ [(n, (i <<< 4 ||| l).toNat)]) (i <<< 4 ||| l).toNat = some k := by
    unfold portFind
    rw [List.append_assoc, List.find?_append, List.find?_eq_none.2 (fun x hx => by simpa using hp x hx)]
    simp
  unfold eventCb
  rw [h]

/-- interface 0x21 looks like interface 1 -/
example : (0x21 : Byte) &&& 0xf = 1 := by decide

end Verif.E1d
