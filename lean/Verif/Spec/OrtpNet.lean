import Verif.OrtpNet
/-!
# Specification: descriptors of an RTP socket, from the history of calls alone
-/
namespace Verif.Ortp.Net

/-- the sockets the session holds after a history: those of the last successful bind, explicit or by connecting without a bind -/
def held : Option (Nat × Nat) → List Op → Option (Nat × Nat)
  | s, [] => s
  | _, .bind _ r :: h => held r h
  | s, .connect port auto _ _ _ :: h => held (if port ≠ 0 ∧ s = none then auto else s) h
  | _, .free :: h => held none h
  | s, _ :: h => held s h

/-- the sockets that were ever opened for the socket, in order -/
def opened : Option (Nat × Nat) → List Op → List Nat
  | _, [] => []
  | _, .bind _ (some (a, b)) :: h => a :: b :: opened (some (a, b)) h
  | _, .bind _ none :: h => opened none h
  | none, .connect port (some (a, b)) _ _ _ :: h => if port = 0 then opened none h else a :: b :: opened (some (a, b)) h
  | s, .connect _ _ _ _ _ :: h => opened s h
  | _, .free :: h => opened none h
  | s, _ :: h => opened s h

/-- the sockets closed, in order -/
def closes : List Act → List Nat
  | [] => []
  | .closed f :: as => f :: closes as
  | _ :: as => closes as

/-- the two sockets of a session, as a list -/
def fds : Option (Nat × Nat) → List Nat
  | none => []
  | some (a, b) => [a, b]

/-- descriptors used by an action -/
def uses : Act → List Int
  | .prio f => [f]
  | .name f => [f]
  | _ => []

/-- Are the numbers kept by the socket those of the session?  After a successful bind, and after connecting a socket that is not in
polling mode; not any more after a failed bind, and not after a socket in polling mode (or with an unusable remote address) was
connected without a bind. `s`: the sockets of the session, `k`: the answer so far. -/
def inStep (poll : Bool) : Option (Nat × Nat) → Bool → List Op → Bool
  | _, k, [] => k
  | _, _, .bind _ (some r) :: h => inStep poll (some r) true h
  | s, k, .bind _ none :: h => inStep poll none (k && decide (s = none)) h
  | s, k, .connect port auto remote _ _ :: h =>
    if port = 0 then inStep poll s k h
    else if s = none ∧ auto = none then inStep poll none k h
    else
      let s' := if s = none then auto else s
      inStep poll s' (if remote && !poll then true else k && decide (s ≠ none)) h
  | s, k, .autoconnect _ _ :: h => inStep poll s (if poll then k else true) h
  | s, k, .free :: h => inStep poll none (k && decide (s = none)) h
  | s, k, _ :: h => inStep poll s k h

end Verif.Ortp.Net
