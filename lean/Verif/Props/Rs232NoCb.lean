import Verif.Props.Rs232
/-!
# C103: a serial line without call-back
-/
set_option maxRecDepth 10000
namespace Verif.Rs232

/-- the message is neither delivered nor freed -/
def toLeak : Act → Act
  | .deliver d _ => .leak d
  | a => a

/-- the call-back makes no difference for anything but what becomes of a complete message -/
theorem read_nocb {sh sh' : Sh} (hc : sh.cb = true) {r : Except Unit (List Byte)} {rc : Int} {a : List Act} (h : serRead sh r = .ok (sh', rc, a)) :
    sh'.cb = true ∧ ∃ rc', serRead { sh with cb := false } r = .ok ({ sh' with cb := false }, rc', a.map toLeak) := by
  obtain ⟨rx, missing, cb⟩ := sh
  subst hc
  unfold serRead at h ⊢
  simp only at h ⊢
  cases rx with
  | freed => cases h
  | null =>
    cases r with
    | error e => cases h; exact ⟨rfl, _, rfl⟩
    | ok bs =>
      simp only at h ⊢
      split at h
      · cases h
      · rename_i h1
        rw [if_neg h1]
        rw [if_pos (by decide)] at h ⊢
        split at h <;> rename_i h2
        · rw [if_pos h2]; cases h; exact ⟨rfl, _, rfl⟩
        · rw [if_neg h2]; cases h; exact ⟨rfl, _, rfl⟩
  | buf d =>
    cases r with
    | error e => cases h; exact ⟨rfl, _, rfl⟩
    | ok bs =>
      simp only at h ⊢
      split at h
      · cases h
      · rename_i h1
        rw [if_neg h1]
        split at h <;> rename_i h2
        · rw [if_pos h2]
          split at h <;> rename_i h3
          · rw [if_pos h3]; cases h; exact ⟨rfl, _, rfl⟩
          · rw [if_neg h3]; cases h; exact ⟨rfl, _, rfl⟩
        · rw [if_neg h2]
          split at h <;> rename_i h3
          · rw [if_pos h3, if_neg (by decide)]
            rw [if_pos trivial] at h
            cases h
            exact ⟨rfl, _, rfl⟩
          · rw [if_neg h3]; cases h; exact ⟨rfl, _, rfl⟩

theorem run_nocb : ∀ {rs : List (Except Unit (List Byte))} {sh sh' : Sh} {a : List Act}, sh.cb = true → run sh rs = .ok (sh', a) →
    run { sh with cb := false } rs = .ok ({ sh' with cb := false }, a.map toLeak) := by
  intro rs
  induction rs with
  | nil => intro sh sh' a _ h; cases h; rfl
  | cons r rs ih =>
    intro sh sh' a hc h
    rw [run] at h ⊢
    cases h1 : serRead sh r with
    | error e => rw [h1] at h; cases h
    | ok p =>
      obtain ⟨s1, rc, a1⟩ := p
      obtain ⟨c1, rc', e1⟩ := read_nocb hc h1
      rw [h1] at h
      cases h2 : run s1 rs with
      | error e => simp only [h2, bind, Except.bind] at h; cases h
      | ok q =>
        obtain ⟨s2, a2⟩ := q
        simp only [h2, bind, Except.bind] at h
        cases h
        rw [e1]
        simp only [bind, Except.bind]
        rw [ih c1 h2]
        simp only [List.map_append]

theorem adm_nocb : ∀ {rs : List (Except Unit (List Byte))} {sh : Sh}, sh.cb = true → AdmReads { sh with cb := false } rs → AdmReads sh rs := by
  intro rs
  induction rs with
  | nil => intro _ _ _; trivial
  | cons r rs ih =>
    intro sh hc h
    refine ⟨h.1, fun s1 rc a e => ?_⟩
    obtain ⟨c1, rc', e1⟩ := read_nocb hc e
    exact ih c1 (h.2 _ _ _ e1)

/-- C103 is false on every line without call-back: whatever the sizes of the reads, every message that was received completely is neither delivered nor
freed, and nothing else happens -/
theorem no_callback_every_violated {rs : List (Except Unit (List Byte))} (ha : AdmReads (init false) rs) (hf : Fits (octets rs)) :
    ∃ sh, run (init false) rs = .ok (sh, (frames (octets rs)).2.map .leak) := by
  obtain ⟨sh, h⟩ := C56_fragmentation (adm_nocb (sh := init true) rfl ha) hf
  refine ⟨{ sh with cb := false }, ?_⟩
  have := run_nocb (sh := init true) rfl h
  rw [List.map_map] at this
  exact this

/-- two messages, in seven reads -/
example : AdmReads (init false) frag ∧ Fits (octets frag) ∧ (frames (octets frag)).2 = [buildMsg [1, 2, 3], buildMsg [4]] := by
  have e : octets frag = [[1, 2, 3], [4]].flatMap buildMsg := by decide +kernel
  have b := build_fits (ms := [[1, 2, 3], [4]]) (by decide)
  refine ⟨admB_ok (by decide +kernel), by rw [e]; exact b.1, by rw [e, b.2]; rfl⟩

end Verif.Rs232
