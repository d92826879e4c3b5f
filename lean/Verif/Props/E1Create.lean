import Verif.Props.E1Cfg
/-!
# C47 (continued): the exact effect of `e1inp_line_create`
-/
namespace Verif.E1
open Verif
set_option linter.unusedSimpArgs false

/-- two octets equal but for the case of a letter of the Latin alphabet -/
def SameLetter (x y : Byte) : Prop :=
  x = y ∨ ∃ k < 26, (x.toNat = 'A'.toNat + k ∨ x.toNat = 'a'.toNat + k) ∧
    (y.toNat = 'A'.toNat + k ∨ y.toNat = 'a'.toNat + k)

/-- two names equal but for the case of letters -/
inductive SameName : List Byte → List Byte → Prop
  | nil : SameName [] []
  | cons {x y a b} : SameLetter x y → SameName a b → SameName (x :: a) (y :: b)

private theorem lower_eq (x y : Byte) : lower x = lower y ↔ SameLetter x y := by
  have hA : 'A'.toNat = 65 := rfl
  have ha : 'a'.toNat = 97 := rfl
  have hx := x.isLt
  have hy := y.isLt
  have hadd : ∀ z : Byte, z.toNat ≤ 0x5a → (z + 0x20).toNat = z.toNat + 32 := by
    intro z hz
    rw [BitVec.toNat_add]
    have : (0x20 : Byte).toNat = 32 := rfl
    rw [this]
    exact Nat.mod_eq_of_lt (by omega)
  have hlow : ∀ z : Byte, (lower z).toNat = if 0x41 ≤ z.toNat ∧ z.toNat ≤ 0x5a then z.toNat + 32 else z.toNat := by
    intro z
    unfold lower
    split
    · rename_i h; exact hadd z h.2
    · rfl
  rw [← BitVec.toNat_inj, hlow, hlow]
  unfold SameLetter
  rw [hA, ha, ← BitVec.toNat_inj]
  constructor
  · intro h
    by_cases hxy : x.toNat = y.toNat
    · exact Or.inl hxy
    · right
      split at h <;> split at h
      · omega
      · exact ⟨x.toNat - 65, by omega, by omega, by omega⟩
      · exact ⟨y.toNat - 65, by omega, by omega, by omega⟩
      · omega
  · rintro (h | ⟨k, hk, h1, h2⟩)
    · rw [h]
    · split <;> split <;> omega

private theorem map_lower_eq : ∀ (a b : List Byte), a.map lower = b.map lower ↔ SameName a b := by
  intro a
  induction a with
  | nil =>
    intro b
    cases b with
    | nil => exact ⟨fun _ => .nil, fun _ => rfl⟩
    | cons y b => exact ⟨fun h => by simp at h, fun h => by cases h⟩
  | cons x a ih =>
    intro b
    cases b with
    | nil => exact ⟨fun h => by simp at h, fun h => by cases h⟩
    | cons y b =>
      simp only [List.map_cons, List.cons.injEq, lower_eq]
      rw [ih b]
      exact ⟨fun h => .cons h.1 h.2, fun h => by cases h with | cons h1 h2 => exact ⟨h1, h2⟩⟩

/-- the driver registered first among those of this name -/
def DriverNamed (st : St) (name : List Byte) (d : Driver) : Prop :=
  ∃ a b, st.drivers = a ++ d :: b ∧ SameName name d.name ∧ ∀ e ∈ a, ¬ SameName name e.name

theorem driver_find (st : St) (name : List Byte) (d : Driver) :
    driverFind st name = some d ↔ DriverNamed st name d := by
  unfold driverFind DriverNamed
  rw [List.find?_eq_some_iff_append]
  constructor
  · rintro ⟨h1, a, b, h2, h3⟩
    refine ⟨a, b, h2, (map_lower_eq _ _).1 (by simpa using h1), ?_⟩
    intro e he hs
    have := h3 e he
    rw [(map_lower_eq _ _).2 hs] at this
    simp at this
  · rintro ⟨a, b, h1, h2, h3⟩
    refine ⟨by simpa using (map_lower_eq _ _).2 h2, a, b, h1, ?_⟩
    intro e he
    have := h3 e he
    rw [← map_lower_eq] at this
    simpa using this

theorem driver_find_none (st : St) (name : List Byte) :
    driverFind st name = none ↔ ∀ d ∈ st.drivers, ¬ SameName name d.name := by
  unfold driverFind
  rw [List.find?_eq_none]
  simp only [beq_iff_eq, map_lower_eq]

/-- C47: the exact effect of `e1inp_line_create` after every history.  It returns NULL and changes nothing
unless the number is free, a driver of this name (upper and lower case not being distinguished) is registered
and its first one agrees to create the line.  Otherwise the new line, which no other object had been, has this
number and driver, one reference ("ctor"), no operations and no trace file; its time slots have no type, no
timer, no LAPD instance and no event pending; it is registered last; and nothing else changes. -/
theorem line_create_exact {ops : List Op} (ha : AdmRun St.init ops) :
    ∃ st acts, run St.init ops = .ok (st, acts) ∧ ∀ nr name,
      (((∃ l ∈ st.reg, ∃ x, st.line l = some x ∧ x.num = nr) ∨ (∀ d ∈ st.drivers, ¬ SameName name d.name) ∨
          (∃ d, DriverNamed st name d ∧ d.createOk = false)) → lineCreate st nr name = .ok (st, none)) ∧
      ((∀ l ∈ st.reg, ∀ x, st.line l = some x → x.num ≠ nr) → ∀ d, DriverNamed st name d → d.createOk = true →
        ∃ st' l, lineCreate st nr name = .ok (st', some l) ∧ st.line l = none ∧ l ∉ st.reg ∧
          (∃ x, st'.line l = some x ∧ x.num = nr ∧ x.driver = d ∧ x.uses = [(uCtor, 1)] ∧ x.ops = none ∧ x.pcapFd = -1) ∧
          (∀ i, (st'.ts (l, i)).u = .none ∧ (st'.ts (l, i)).line = some l ∧ (st'.ts (l, i)).tmr = .idle ∧
            (st'.ts (l, i)).lapd = none ∧ (st'.ts (l, i)).armed = false) ∧
          st'.reg = st.reg ++ [l] ∧ st'.drivers = st.drivers ∧ st'.link = st.link ∧
          (∀ l', l' ≠ l → st'.line l' = st.line l') ∧ (∀ r, r.1 ≠ l → st'.ts r = st.ts r)) := by
  obtain ⟨st, acts, hr, hr', hi⟩ := runs_of inv_init ha
  have hfr := fresh_line hi
  refine ⟨st, acts, hr, ?_⟩
  intro nr name
  have hfind : ∀ o, lineFind st nr = .ok o → (o = none ↔ ∀ l ∈ st.reg, ∀ x, st.line l = some x → x.num ≠ nr) := by
    intro o ho
    unfold lineFind at ho
    rcases lineFindIn_spec st nr st.reg hi.regLive with ⟨h1, h2⟩ | ⟨l, x, h1, h2, h3, h4⟩
    · rw [h1] at ho
      have := Except.ok.inj ho
      exact ⟨fun _ => h2, fun _ => this.symm⟩
    · rw [h4] at ho
      have := Except.ok.inj ho
      exact ⟨fun hn => (by rw [hn] at this; cases this), fun hn => absurd h3 (hn l h1 x h2)⟩
  obtain ⟨o, ho⟩ : ∃ o, lineFind st nr = .ok o := by
    unfold lineFind
    rcases lineFindIn_spec st nr st.reg hi.regLive with ⟨h1, h2⟩ | ⟨l, x, h1, h2, h3, h4⟩
    · exact ⟨_, h1⟩
    · exact ⟨_, h4⟩
  have hfi := hfind o ho
  constructor
  · intro hc
    unfold lineCreate
    rw [ho, bind_ok]
    cases o with
    | some l => rfl
    | none =>
      rcases hc with ⟨l, hl, x, hx, hn⟩ | hc | ⟨d, hd, hf⟩
      · exact absurd hn (hfi.1 rfl l hl x hx)
      · simp only [(driver_find_none st name).2 hc]
      · simp only [(driver_find st name d).2 hd, hf, Bool.false_eq_true, if_false]
  · intro hfree d hd hok
    have hon := hfi.2 hfree
    subst hon
    refine ⟨{ st with
          nextLine := st.nextLine + 1,
          line := fun l' => if l' = st.nextLine then
            some { num := nr, driver := d, ops := none, uses := [(uCtor, 1)], pcapFd := -1 }
            else st.line l',
          ts := fun r => if r.1 = st.nextLine then freshTs st.nextLine else st.ts r,
          reg := st.reg ++ [st.nextLine] }, st.nextLine, ?_, hfr, ?_,
      ⟨_, if_pos rfl, rfl, rfl, rfl, rfl, rfl⟩, ?_, rfl, rfl, rfl, ?_, ?_⟩
    · unfold lineCreate
      rw [ho, bind_ok]
      simp only [(driver_find st name d).2 hd, hok, if_true]
    · intro hm
      obtain ⟨x, hx⟩ := hi.regLive _ hm
      rw [hfr] at hx; cases hx
    · intro i
      simp only [if_true]
      exact ⟨rfl, rfl, rfl, rfl, rfl⟩
    · intro l' hl'; exact if_neg hl'
    · intro r hr; exact if_neg hr

/-- "Dahdi" and "DAHDI" are the same name, "dahdi" and "dahd" are not -/
example : SameName [0x44, 0x61, 0x68, 0x64, 0x69] [0x44, 0x41, 0x48, 0x44, 0x49] ∧
    ¬ SameName [0x64, 0x61, 0x68, 0x64, 0x69] [0x64, 0x61, 0x68, 0x64] := by
  rw [← map_lower_eq, ← map_lower_eq]
  decide

/-- a driver is found, and creates a line -/
example : after setup (fun st _ => (driverFind st drv.name).any (fun d => d.createOk) &&
    (match lineCreate st 7 drv.name with | .ok (_, some _) => true | _ => false)) = true := by
  decide +kernel

/-- e1_input.h:269-288: the signals for the establishment and the release of a link and for an unknown TEI can be told apart, and none is S_L_INP_NONE -/
theorem tei_signals_distinct : [0, S_L_INP_TEI_UP, S_L_INP_TEI_DN, S_L_INP_TEI_UNKNOWN].Nodup := by decide

end Verif.E1
