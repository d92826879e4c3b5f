import Verif.IpAccessCfg
/-!
# C123, C125: the sockets of the ip.access driver
-/
set_option maxRecDepth 10000
namespace Verif.IpAccess.Cfg

/-! ### Specification -/

/-- a socket for OML as configured -/
def OmlAs (p : Pars) (s : Sock) : Prop := s.dscp = p.omlDscp ∧ s.prio = p.omlPrio

/-- a socket for RSL as configured -/
def RslAs (p : Pars) (s : Sock) : Prop := s.dscp = p.rslDscp ∧ s.prio = p.rslPrio

/-- the sockets of a line that listen at a port -/
def at_ (w : W) (line port : Nat) : List Sock := w.lst.filter (fun s => decide (s.line = line) && decide (s.port = port))

/-! ### C123 -/

/-- **C123 violated**: DSCP and priority are swapped, for every socket and all settings in which they differ -/
theorem C123_swapped_violated (p : Pars) (line addr port : Nat) :
    (p.omlDscp ≠ p.omlPrio → ¬ OmlAs p (omlSock p line) ∧ ¬ OmlAs p (omlCli p line addr)) ∧
    (p.rslDscp ≠ p.rslPrio → ¬ RslAs p (rslSock p line) ∧ ¬ RslAs p (rslCli p line addr port)) :=
  ⟨fun h => ⟨fun h2 => h h2.2, fun h2 => h h2.2⟩, fun h => ⟨fun h2 => h h2.2, fun h2 => h h2.2⟩⟩

/-- settings in which they differ -/
example : (⟨46, 6, 34, 5, 0⟩ : Pars).omlDscp ≠ (⟨46, 6, 34, 5, 0⟩ : Pars).omlPrio := by decide

/-- the sockets that are listening, in every history: each was opened by an update of its line, with the address configured then, at the
OML or the RSL port -/
theorem run_lst {os : List Op} : ∀ {w : W} {s : Sock}, s ∈ (run w os).lst → s ∈ w.lst ∨ ∃ o ∈ os, s = omlSock o.p o.line ∨ s = rslSock o.p o.line := by
  induction os with
  | nil => intro w s h; exact .inl h
  | cons o os ih =>
    intro w s h
    rcases ih h with h | ⟨o', ho, h⟩
    · simp only [step, update] at h
      split at h
      · exact .inl h
      · split at h
        · exact .inl h
        · split at h
          · rcases List.mem_append.1 h with h | h
            · exact .inl h
            · exact .inr ⟨o, by simp, .inl (List.mem_singleton.1 h)⟩
          · rcases List.mem_append.1 h with h | h
            · rcases List.mem_append.1 h with h | h
              · exact .inl h
              · exact .inr ⟨o, by simp, .inl (List.mem_singleton.1 h)⟩
            · exact .inr ⟨o, by simp, .inr (List.mem_singleton.1 h)⟩
    · exact .inr ⟨o', List.mem_cons_of_mem _ ho, h⟩

/-- **C123**, what holds: in every history, each listening socket has the address configured when its line was updated, the port of OML or RSL, and the
settings of OML or RSL, respectively, though swapped; if these agree, they are as configured -/
theorem C123_settings_partial {os : List Op} {s : Sock} (h : s ∈ (run start os).lst) :
    ∃ o ∈ os, s.line = o.line ∧ s.addr = o.p.bind ∧
      ((s.port = 3002 ∧ s.prio = o.p.omlDscp ∧ s.dscp = o.p.omlPrio ∧ (o.p.omlDscp = o.p.omlPrio → OmlAs o.p s)) ∨
       (s.port = 3003 ∧ s.prio = o.p.rslDscp ∧ s.dscp = o.p.rslPrio ∧ (o.p.rslDscp = o.p.rslPrio → RslAs o.p s))) := by
  rcases run_lst h with h | ⟨o, ho, rfl | rfl⟩
  · simp [start] at h
  · exact ⟨o, ho, rfl, rfl, .inl ⟨rfl, rfl, rfl, fun h => ⟨h.symm, h⟩⟩⟩
  · exact ⟨o, ho, rfl, rfl, .inr ⟨rfl, rfl, rfl, fun h => ⟨h.symm, h⟩⟩⟩

/-! ### C125 -/

/-- the state of a line: initialised exactly if both its sockets listen -/
structure Inv (w : W) : Prop where
  oml : ∀ l, w.init l = true → ∃ s ∈ w.lst, s.line = l ∧ s.port = OML_PORT
  rsl : ∀ l, w.init l = true ↔ ∃ s ∈ w.lst, s.line = l ∧ s.port = RSL_PORT

theorem run_inv {os : List Op} : ∀ {w : W}, Inv w → Inv (run w os) := by
  induction os with
  | nil => intro w h; exact h
  | cons o os ih =>
    intro w I
    refine ih ?_
    simp only [step, update]
    split
    · exact I
    · split
      · exact I
      · split
        · refine ⟨?_, ?_⟩
          · intro l hl
            obtain ⟨s, hs, h⟩ := I.oml l hl
            exact ⟨s, List.mem_append_left _ hs, h⟩
          · intro l
            rw [I.rsl l]
            refine ⟨fun ⟨s, hs, h⟩ => ⟨s, List.mem_append_left _ hs, h⟩, fun ⟨s, hs, h⟩ => ?_⟩
            rcases List.mem_append.1 hs with hs | hs
            · exact ⟨s, hs, h⟩
            · cases List.mem_singleton.1 hs
              have := h.2
              simp [omlSock, OML_PORT, RSL_PORT] at this
        · refine ⟨?_, ?_⟩
          · intro l hl
            by_cases hll : l = o.line
            · subst hll
              exact ⟨omlSock o.p o.line, List.mem_append_left _ (List.mem_append_right _ (by simp)), rfl, rfl⟩
            · have hl : (if l = o.line then true else w.init l) = true := hl
              rw [if_neg hll] at hl
              obtain ⟨s, hs, h⟩ := I.oml l hl
              exact ⟨s, List.mem_append_left _ (List.mem_append_left _ hs), h⟩
          · intro l
            show (if l = o.line then true else w.init l) = true ↔ _
            by_cases hll : l = o.line
            · subst hll
              rw [if_pos rfl]
              exact ⟨fun _ => ⟨rslSock o.p o.line, List.mem_append_right _ (by simp), rfl, rfl⟩, fun _ => rfl⟩
            · rw [if_neg hll, I.rsl l]
              refine ⟨fun ⟨s, hs, h⟩ => ⟨s, List.mem_append_left _ (List.mem_append_left _ hs), h⟩, fun ⟨s, hs, h⟩ => ?_⟩
              rcases List.mem_append.1 hs with hs | hs
              · rcases List.mem_append.1 hs with hs | hs
                · exact ⟨s, hs, h⟩
                · cases List.mem_singleton.1 hs
                  have := h.2
                  simp [omlSock, OML_PORT, RSL_PORT] at this
              · cases List.mem_singleton.1 hs
                exact absurd h.1.symm hll

theorem start_inv : Inv start := ⟨fun l h => by simp [start] at h, fun l => by simp [start]⟩

/-- **C125**, what holds: in every history, an update returns 0 exactly if afterwards the line listens for OML and for RSL; a line that listens for both is
not changed by later updates, with any parameters; an update changes no sockets but by adding some of its own line -/
theorem C125_update_partial (os : List Op) (o : Op) :
    ((step (run start os) o).2 = 0 ↔
      (∃ s ∈ (step (run start os) o).1.lst, s.line = o.line ∧ s.port = 3002) ∧ (∃ s ∈ (step (run start os) o).1.lst, s.line = o.line ∧ s.port = 3003)) ∧
    ((step (run start os) o).2 = 0 ∨ (step (run start os) o).2 = -5) ∧
    ((∃ s ∈ (run start os).lst, s.line = o.line ∧ s.port = 3003) → step (run start os) o = (run start os, 0)) ∧
    (∃ new, (step (run start os) o).1.lst = (run start os).lst ++ new ∧ ∀ s ∈ new, s.line = o.line) := by
  have I := run_inv (os := os) start_inv
  have I2 : Inv (step (run start os) o).1 := run_inv (os := [o]) I
  have h3 : (∃ s ∈ (run start os).lst, s.line = o.line ∧ s.port = RSL_PORT) → step (run start os) o = (run start os, 0) := by
    intro h
    have := (I.rsl o.line).2 h
    simp only [step, update, if_pos this]
  have h1 : (step (run start os) o).2 = 0 ↔ (step (run start os) o).1.init o.line = true := by
    generalize run start os = w
    simp only [step, update]
    split
    · rename_i h; simp [h]
    · rename_i h
      split
      · simp [h]
      · split
        · simp [h]
        · simp
  refine ⟨?_, ?_, h3, ?_⟩
  · rw [h1]
    refine ⟨fun h => ⟨I2.oml _ h, (I2.rsl _).1 h⟩, fun h => (I2.rsl _).2 h.2⟩
  · generalize run start os = w
    simp only [step, update]
    split
    · exact .inl rfl
    · split
      · exact .inr rfl
      · split
        · exact .inr rfl
        · exact .inl rfl
  · generalize run start os = w
    simp only [step, update]
    split
    · exact ⟨[], by simp, by simp⟩
    · split
      · exact ⟨[], by simp, by simp⟩
      · split
        · exact ⟨[omlSock o.p o.line], rfl, by simp [omlSock]⟩
        · exact ⟨[omlSock o.p o.line, rslSock o.p o.line], by simp, by simp [omlSock, rslSock]⟩

/-- **C125**: an update of the first line works if the system lets it -/
theorem C125_first (p : Pars) (line : Nat) : (step start ⟨p, line, true, true⟩).2 = 0 := by
  simp [step, update, start, canOpen, rslSock, omlSock, clash, OML_PORT, RSL_PORT]

/-- **C125 violated**: if the RSL socket could not be opened once, the OML socket is left listening, and every later update with this bind address fails, even
though nothing is in the way of the RSL socket any more -/
theorem C125_retry_violated {w : W} {p : Pars} {line : Nat} (hi : w.init line = false) (ho : canOpen w true (omlSock p line) = true) :
    step w ⟨p, line, true, false⟩ = ({ w with lst := w.lst ++ [omlSock p line] }, -5) ∧
    ∀ os : List Op, (∀ o ∈ os, o.line = line ∧ o.p.bind = p.bind) →
      run (step w ⟨p, line, true, false⟩).1 os = (step w ⟨p, line, true, false⟩).1 ∧
      ∀ o : Op, o.line = line → o.p.bind = p.bind → (step (run (step w ⟨p, line, true, false⟩).1 os) o).2 = -5 := by
  have e : step w ⟨p, line, true, false⟩ = ({ w with lst := w.lst ++ [omlSock p line] }, -5) := by
    simp only [step, update]
    rw [if_neg (by simp [hi]), if_neg (by simp [ho]), if_pos (by simp [canOpen])]
  refine ⟨e, ?_⟩
  rw [e]
  have key : ∀ o : Op, o.line = line → o.p.bind = p.bind →
      step { w with lst := w.lst ++ [omlSock p line] } o = ({ w with lst := w.lst ++ [omlSock p line] }, -5) := by
    intro o h1 h2
    have hc : canOpen { w with lst := w.lst ++ [omlSock p line] } o.omlOk (omlSock o.p o.line) = false := by
      have : (w.lst ++ [omlSock p line]).any (clash (omlSock o.p o.line)) = true := by
        refine List.any_eq_true.2 ⟨omlSock p line, by simp, ?_⟩
        simp [clash, omlSock, h2]
      simp [canOpen, this]
    simp only [step, update]
    rw [if_neg (by rw [h1]; simp [hi]), if_pos hc]
  intro os
  induction os with
  | nil => intro _; exact ⟨rfl, fun o h1 h2 => by simp only [run]; rw [key o h1 h2]⟩
  | cons o os ih =>
    intro h
    have ho := h o (by simp)
    simp only [run]
    rw [key o ho.1 ho.2]
    exact ih (fun x hx => h x (List.mem_cons_of_mem _ hx))

/-- such a state is the initial one -/
example : start.init 0 = false ∧ canOpen start true (omlSock ⟨0, 0, 0, 0, 0⟩ 0) = true := by decide

/-- **C125 violated**: a second line can never be used in the role of a BSC with the same bind address -/
theorem C125_second_line_violated (p q : Pars) {l m : Nat} (h : l ≠ m) (hb : p.bind = q.bind) (a b : Bool) :
    (step (step start ⟨p, l, true, true⟩).1 ⟨q, m, a, b⟩).2 = -5 := by
  have hm : ¬ m = l := fun e => h e.symm
  simp [step, update, start, canOpen, rslSock, omlSock, clash, OML_PORT, RSL_PORT, hm, hb]

end Verif.IpAccess.Cfg
