import Verif.OrtpLog
/-!
# C168: messages of the oRTP library in the log
-/
namespace Verif.Ortp.Log

theorem run_plain : ∀ (a : Text) (f : Text) (as : List Arg), (∀ c ∈ a, c ≠ 37) → run false (a ++ f) as = (run false f as).map (a ++ ·) := by
  intro a
  induction a with
  | nil => intro f as _; simp only [List.nil_append]; cases run false f as <;> rfl
  | cons c a ih =>
    intro f as h
    have hc : c ≠ 37 := h c (by simp)
    rw [List.cons_append, run, if_neg (by simp), if_neg hc, ih f as (fun x hx => h x (by simp [hx]))]
    cases run false f as <;> rfl

/-- what follows a format that fits its arguments -/
theorem run_snoc : ∀ (f : Text) (p : Bool) (as : List Arg) (t : Text) (c : Byte), c ≠ 37 → run p f as = .ok t → run p (f ++ [c]) as = .ok (t ++ [c]) := by
  intro f
  induction f with
  | nil =>
    intro p as t c hc h
    cases p with
    | true => simp [run] at h
    | false =>
      simp only [run, Bool.false_eq_true, if_false] at h
      cases h
      rw [List.nil_append, run, if_neg (by simp), if_neg hc]
      rfl
  | cons x f ih =>
    intro p as t c hc h
    rw [List.cons_append]
    unfold run at h ⊢
    cases p with
    | true =>
      rw [if_pos rfl] at h ⊢
      by_cases hx : x = 37
      · rw [if_pos hx] at h ⊢
        cases hr : run false f as with
        | error e => rw [hr] at h; cases h
        | ok u => rw [hr] at h; cases h; rw [ih false as u c hc hr]; rfl
      · rw [if_neg hx] at h ⊢
        cases ht : take as x with
        | error e => rw [ht] at h; cases h
        | ok y =>
          rw [ht] at h
          simp only [bind, Except.bind] at h ⊢
          cases hr : run false f y.2 with
          | error e => rw [hr] at h; cases h
          | ok u => rw [hr] at h; cases h; rw [ih false y.2 u c hc hr, List.append_assoc]
    | false =>
      rw [if_neg (by simp)] at h ⊢
      by_cases hx : x = 37
      · rw [if_pos hx] at h ⊢
        exact ih true as t c hc h
      · rw [if_neg hx] at h ⊢
        cases hr : run false f as with
        | error e => rw [hr] at h; cases h
        | ok u => rw [hr] at h; cases h; rw [ih false as u c hc hr]; rfl

/-- **C168**: a message of oRTP whose format fits its arguments is logged with the domain in front, its text unchanged, and ended by
a newline if its format is not; provided there is no percent sign in the name of the domain -/
theorem C168_text_partial {domain : Option Text} (hd : ∀ c ∈ domain.getD [], c ≠ 37) (lev : Lvl) {fmt : Text} {args : List Arg} {t : Text}
    (hne : fmt ≠ []) (h : printf fmt args = .ok t) :
    logfn domain lev fmt args = .ok (some (level lev, (match domain with | some (c :: cs) => c :: cs ++ [58, 32] | _ => []) ++ t ++
      (if fmt.getLast? = some 10 then [] else [10]))) := by
  have key : printf (fmt ++ (if fmt.getLast? ≠ some 10 then [10] else [])) args = .ok (t ++ (if fmt.getLast? = some 10 then [] else [10])) := by
    by_cases hl : fmt.getLast? = some 10
    · rw [if_neg (by simp [hl]), if_pos hl, List.append_nil, List.append_nil]; exact h
    · rw [if_pos hl, if_neg hl]; exact run_snoc fmt false args t 10 (by decide) h
  have pre : ∀ c ∈ (match domain with | some (c :: cs) => c :: cs ++ [58, 32] | _ => ([] : Text)), c ≠ 37 := by
    intro c hc
    split at hc
    · rename_i x xs
      simp only [List.cons_append, List.mem_cons, List.mem_append, List.not_mem_nil, or_false] at hc
      rcases hc with rfl | hc | rfl | rfl
      · exact hd c (by simp)
      · exact hd c (by simp [hc])
      · decide
      · decide
    · simp at hc
  have hp : domain.getD [] ++ (if domain.getD [] ≠ [] then [58, 32] else []) = (match domain with | some (c :: cs) => c :: cs ++ [58, 32] | _ => ([] : Text)) := by
    cases domain with
    | none => rfl
    | some d => cases d <;> simp
  simp only [logfn, format, if_neg hne]
  rw [hp, List.append_assoc, printf, run_plain _ _ _ pre]
  rw [printf] at key
  rw [key]
  simp only [Except.map, bind, Except.bind, List.append_assoc]

/-- **C168**: nothing is logged of an empty format; and a message is logged with the level of the same meaning -/
theorem C168_level {domain : Option Text} {lev : Lvl} {fmt : Text} {args : List Arg} {r : Option (OsmoLvl × Text)} (h : logfn domain lev fmt args = .ok r) :
    (r = none ↔ fmt = []) ∧ ∀ l t, r = some (l, t) →
      l = (match lev with | .debug => .debug | .message => .info | .warning => .notice | .fatal => .fatal | _ => .error) := by
  unfold logfn format at h
  by_cases hf : fmt = []
  · rw [if_pos hf] at h
    cases h
    exact ⟨by simp [hf], by simp⟩
  · rw [if_neg hf] at h
    simp only [] at h
    cases hp : printf (domain.getD [] ++ (if domain.getD [] ≠ [] then [58, 32] else []) ++ fmt ++ (if fmt.getLast? ≠ some 10 then [10] else [])) args with
    | error e => rw [hp] at h; cases h
    | ok t =>
      rw [hp] at h
      cases h
      refine ⟨by simp [hf], ?_⟩
      rintro l u ⟨⟩
      cases lev <;> rfl

/-- a format that ends with a newline gives a text that does, if no conversion is called like it -/
theorem run_newline : ∀ (f : Text) (p : Bool) (as : List Arg) (t : Text), (∀ a ∈ as, a.conv ≠ 10) → run p (f ++ [10]) as = .ok t → t.getLast? = some 10 := by
  have cons : ∀ (c : Byte) (t : Text), t.getLast? = some 10 → (c :: t).getLast? = some 10 := by
    intro c t h
    cases t with
    | nil => simp at h
    | cons x t => rw [List.getLast?_cons_cons]; exact h
  have tk : ∀ (as : List Arg) (c : Byte) (y : Text × List Arg), take as c = .ok y → (∀ a ∈ as, a.conv ≠ 10) → c ≠ 10 ∧ ∀ a ∈ y.2, a.conv ≠ 10 := by
    intro as c y h ha
    cases as with
    | nil => cases h
    | cons a as =>
      rw [take] at h
      by_cases hc : a.conv = c
      · rw [if_pos hc] at h
        cases h
        exact ⟨fun e => ha a (by simp) (hc.trans e), fun b hb => ha b (by simp [hb])⟩
      · rw [if_neg hc] at h; cases h
  intro f
  induction f with
  | nil =>
    intro p as t ha h
    rw [List.nil_append, run] at h
    cases p with
    | true =>
      rw [if_pos rfl, if_neg (by decide)] at h
      cases ht : take as 10 with
      | error e => rw [ht] at h; cases h
      | ok y => exact absurd rfl (tk as 10 y ht ha).1
    | false =>
      rw [if_neg (by simp), if_neg (by decide)] at h
      cases h
      rfl
  | cons x f ih =>
    intro p as t ha h
    rw [List.cons_append, run] at h
    cases p with
    | true =>
      rw [if_pos rfl] at h
      by_cases hx : x = 37
      · rw [if_pos hx] at h
        cases hr : run false (f ++ [10]) as with
        | error e => rw [hr] at h; cases h
        | ok u => rw [hr] at h; cases h; exact cons _ _ (ih false as u ha hr)
      · rw [if_neg hx] at h
        cases ht : take as x with
        | error e => rw [ht] at h; cases h
        | ok y =>
          rw [ht] at h
          simp only [bind, Except.bind] at h
          cases hr : run false (f ++ [10]) y.2 with
          | error e => rw [hr] at h; cases h
          | ok u =>
            rw [hr] at h
            cases h
            rw [List.getLast?_append, ih false y.2 u (tk as x y ht ha).2 hr]
            rfl
    | false =>
      rw [if_neg (by simp)] at h
      by_cases hx : x = 37
      · rw [if_pos hx] at h; exact ih true as t ha h
      · rw [if_neg hx] at h
        cases hr : run false (f ++ [10]) as with
        | error e => rw [hr] at h; cases h
        | ok u => rw [hr] at h; cases h; exact cons _ _ (ih false as u ha hr)

/-- **C168**: what is logged always ends with a newline, whatever the domain -/
theorem C168_newline {domain : Option Text} {lev : Lvl} {fmt : Text} {args : List Arg} (ha : ∀ a ∈ args, a.conv ≠ 10) {l : OsmoLvl} {u : Text}
    (hr : logfn domain lev fmt args = .ok (some (l, u))) : u.getLast? = some 10 := by
  have hf : ∃ g, format domain fmt = some (g ++ [10]) := by
    by_cases hne : fmt = []
    · have := ((C168_level hr).1).2 hne; cases this
    · unfold format
      rw [if_neg hne]
      by_cases hl : fmt.getLast? = some 10
      · obtain ⟨g, rfl⟩ : ∃ g, fmt = g ++ [10] := ⟨fmt.dropLast, by rw [List.getLast?_eq_some_getLast hne] at hl; rw [← Option.some.inj hl, List.dropLast_concat_getLast]⟩
        rw [if_neg (c := List.getLast? (g ++ [10]) ≠ some 10) (by simp), List.append_nil, ← List.append_assoc]
        exact ⟨_, rfl⟩
      · rw [if_pos hl]
        exact ⟨_, rfl⟩
  obtain ⟨g, hg⟩ := hf
  simp only [logfn, hg] at hr
  cases hp : printf (g ++ [10]) args with
  | error e => rw [hp] at hr; cases hr
  | ok t =>
    rw [hp] at hr
    cases hr
    exact run_newline g false args _ ha hp

/-- **C168**, violated: the name of the domain is part of the format: a percent sign in it takes an argument away from the message, or
one that is not there -/
theorem C168_domain_violated (lev : Lvl) (d : Text) (hd : ∀ c ∈ d, c ≠ 37) :
    logfn (some (d ++ [37])) lev [104, 105] [] = .error .ub ∧
    (∀ (x : Byte) (t : Text), x ≠ 37 → logfn (some (d ++ [37, x])) lev [37, 100] [⟨100, t⟩] = .error .ub) := by
  have h37 : d ++ [37] ≠ [] := by simp
  refine ⟨?_, ?_⟩
  · simp only [logfn, format, Option.getD_some]
    rw [if_neg (by simp), if_pos h37]
    simp only [printf, List.append_assoc]
    rw [run_plain d _ _ hd]
    have : run false ([37] ++ ([58, 32] ++ ([104, 105] ++ if ([104, 105] : Text).getLast? ≠ some 10 then [10] else []))) [] = .error .ub := by decide
    rw [this]; rfl
  · intro x t hx
    simp only [logfn, format, Option.getD_some]
    rw [if_neg (by simp), if_pos (by simp)]
    simp only [printf, List.append_assoc]
    rw [run_plain d _ _ hd]
    have : run false ([37, x] ++ ([58, 32] ++ ([37, 100] ++ if ([37, 100] : Text).getLast? ≠ some 10 then [10] else []))) [⟨100, t⟩] = .error .ub := by
      rw [List.cons_append, run, if_neg (by simp), if_pos rfl, List.cons_append, run, if_pos rfl, if_neg hx, take]
      by_cases hxd : (100 : Byte) = x
      · subst hxd; rw [if_pos rfl]; rfl
      · rw [if_neg hxd]; rfl
    rw [this]; rfl

/-- "ortp" and "count %d" with the number 7 -/
example : printf [99, 32, 37, 100] [⟨100, [55]⟩] = .ok [99, 32, 55] ∧
    logfn (some [111, 114, 116, 112]) .warning [99, 32, 37, 100] [⟨100, [55]⟩] = .ok (some (.notice, [111, 114, 116, 112, 58, 32, 99, 32, 55, 10])) ∧
    logfn none .other [37, 37, 10] [] = .ok (some (.error, [37, 10])) := by decide +kernel

end Verif.Ortp.Log
