import Verif.Spec.E1Vty
/-!
# Proofs about the configuration
-/
set_option maxRecDepth 10000
namespace Verif.Vty

theorem find_some {c : Cfg} {n : Nat} {l : Line} (h : find c n = some l) : l ∈ c.lines ∧ l.num = n := by
  refine ⟨List.mem_of_find?_eq_some h, ?_⟩
  have := List.find?_some h
  simpa using this

theorem find_none {c : Cfg} {n : Nat} (h : find c n = none) : ∀ l ∈ c.lines, l.num ≠ n := by
  intro l hl
  have := List.find?_eq_none.1 h l hl
  simpa using this

theorem find_none_iff {c : Cfg} {n : Nat} : find c n = none ↔ ∀ l ∈ c.lines, l.num ≠ n := by
  refine ⟨find_none, fun h => ?_⟩
  refine List.find?_eq_none.2 ?_
  intro l hl
  simpa using h l hl

/-- a change that keeps the number -/
def Keeps (f : Line → Line) : Prop := ∀ l, (f l).num = l.num

theorem modify_map {n : Nat} {f : Line → Line} (hf : Keeps f) : ∀ ls : List Line, (modify n f ls).map Line.num = ls.map Line.num := by
  intro ls
  induction ls with
  | nil => rfl
  | cons l ls ih =>
    simp only [modify]
    split
    · simp [hf l]
    · simp [ih]

theorem modify_mem {n : Nat} {f : Line → Line} {x : Line} : ∀ {ls : List Line}, x ∈ modify n f ls → x ∈ ls ∨ ∃ l ∈ ls, l.num = n ∧ x = f l := by
  intro ls
  induction ls with
  | nil => intro h; exact absurd h (by simp [modify])
  | cons l ls ih =>
    intro h
    simp only [modify] at h
    split at h
    · rename_i he
      rcases List.mem_cons.1 h with rfl | h
      · exact .inr ⟨l, by simp, he, rfl⟩
      · exact .inl (List.mem_cons_of_mem _ h)
    · rcases List.mem_cons.1 h with rfl | h
      · exact .inl (by simp)
      · rcases ih h with h | ⟨y, hy, h⟩
        · exact .inl (List.mem_cons_of_mem _ h)
        · exact .inr ⟨y, List.mem_cons_of_mem _ hy, h⟩

theorem modify_other {n m : Nat} {f : Line → Line} (hf : Keeps f) (hm : m ≠ n) : ∀ ls : List Line,
    (modify n f ls).find? (fun l => l.num == m) = ls.find? (fun l => l.num == m) := by
  intro ls
  induction ls with
  | nil => rfl
  | cons l ls ih =>
    simp only [modify]
    split
    · rename_i he
      have h1 : (l.num == m) = false := by simp; omega
      have h2 : ((f l).num == m) = false := by rw [hf l]; exact h1
      simp [List.find?_cons, h1, h2]
    · simp only [List.find?_cons, ih]

theorem modify_find {n : Nat} {f : Line → Line} (hf : Keeps f) : ∀ {ls : List Line} {l : Line}, ls.find? (fun l => l.num == n) = some l →
    (modify n f ls).find? (fun l => l.num == n) = some (f l) := by
  intro ls
  induction ls with
  | nil => intro l h; simp at h
  | cons a ls ih =>
    intro l h
    simp only [List.find?_cons] at h
    simp only [modify]
    split at h
    · rename_i he
      have he' : a.num = n := by simpa using he
      cases h
      rw [if_pos he']
      have : ((f a).num == n) = true := by rw [hf a]; exact he
      simp [List.find?_cons, this]
    · rename_i he
      have he' : ¬ a.num = n := by simpa using he
      rw [if_neg he']
      simp only [List.find?_cons, he]
      exact ih h

theorem modify_last {n : Nat} {f : Line → Line} : ∀ {ls : List Line} {l : Line}, (∀ x ∈ ls, x.num ≠ n) → l.num = n → modify n f (ls ++ [l]) = ls ++ [f l] := by
  intro ls
  induction ls with
  | nil => intro l _ h; simp [modify, h]
  | cons a ls ih =>
    intro l hn h
    have ha := hn a (by simp)
    show modify n f (a :: (ls ++ [l])) = _
    simp only [modify, if_neg ha]
    rw [ih (fun x hx => hn x (List.mem_cons_of_mem _ hx)) h]
    rfl

/-- the invariant is kept by a change of one line -/
theorem upd_ok {c : Cfg} (C : CfgOk c) (n : Nat) {f : Line → Line} (hf : Keeps f) (h : ∀ l ∈ c.lines, LineOk l → l.num = n → LineOk (f l)) : CfgOk (upd c n f) := by
  refine ⟨?_, ?_, C.dscp, C.prio⟩
  · show ((modify n f c.lines).map Line.num).Nodup
    rw [modify_map hf]; exact C.nodup
  · intro l hl
    rcases modify_mem hl with hl | ⟨x, hx, e, rfl⟩
    · exact C.line l hl
    · exact h x hx (C.line x hx) e

theorem onLine_ok {c : Cfg} (C : CfgOk c) (n : Nat) {f : Line → Line} (hf : Keeps f) (h : ∀ l, LineOk l → LineOk (f l)) : CfgOk (onLine c n f).1 := by
  unfold onLine
  split
  · exact C
  · exact upd_ok C n hf (fun l _ L _ => h l L)

theorem newLine_ok {n : Nat} (h : n ≤ 255) (d : Drv) : LineOk (newLine n d) :=
  ⟨h, Nat.zero_le _, Nat.zero_le _, .inl ⟨rfl, rfl, rfl⟩, fun _ => ⟨(by decide : (-1 : Int) ≤ 0), rfl⟩, fun _ _ h => by simp [newLine] at h, rfl, fun _ h => by simp [newLine] at h⟩

theorem mem_unique {c : Cfg} (C : CfgOk c) {x y : Line} (hx : x ∈ c.lines) (hy : y ∈ c.lines) (h : x.num = y.num) : x = y := by
  have := C.nodup
  clear C
  generalize c.lines = ls at *
  induction ls with
  | nil => simp at hx
  | cons a ls ih =>
    simp only [List.map_cons, List.nodup_cons] at this
    rcases List.mem_cons.1 hx with rfl | hx
    · rcases List.mem_cons.1 hy with rfl | hy
      · rfl
      · exact absurd (List.mem_map.2 ⟨y, hy, h.symm⟩) this.1
    · rcases List.mem_cons.1 hy with rfl | hy
      · exact absurd (List.mem_map.2 ⟨x, ‹x ∈ ls›, h⟩) this.1
      · exact ih hx hy this.2

theorem setKeepalive_ok {c : Cfg} (C : CfgOk c) (n : Nat) {a b i : Int}
    (hv : (a = -1 ∧ b = -1 ∧ i = -1) ∨ (a = 0 ∧ b = 0 ∧ i = 0) ∨ (1 ≤ a ∧ a ≤ 300 ∧ 1 ≤ b ∧ b ≤ 20 ∧ 1 ≤ i ∧ i ≤ 300)) :
    CfgOk (setKeepalive c n a b i).1 := by
  unfold setKeepalive
  split
  · exact C
  · rename_i l hl
    split
    · exact C
    · rename_i hk
      refine upd_ok C n (fun _ => rfl) ?_
      intro x hx L e
      have hxl : x = l := mem_unique C hx (find_some hl).1 (e.trans (find_some hl).2.symm)
      refine ⟨L.num, L.port, L.timeout, hv, ?_, L.kap, L.pcap, L.sock⟩
      intro hd
      refine ⟨?_, (L.kaDrv hd).2⟩
      show b ≤ 0
      subst hxl
      have : x.drv.hasKeepalive = false := by
        have hd : x.drv ≠ .ipa := hd
        cases h : x.drv <;> simp_all [Drv.hasKeepalive]
      have hb : b = 0 := by
        apply Decidable.byContradiction
        intro hb
        exact hk ⟨this, hb⟩
      omega

theorem setIpaKeepalive_ok {c : Cfg} (C : CfgOk c) (n : Nat) {i w : Nat} (hv : i = 0 ∨ (1 ≤ i ∧ i ≤ 300 ∧ 1 ≤ w ∧ w ≤ 300)) :
    CfgOk (setIpaKeepalive c n i w).1 := by
  unfold setIpaKeepalive
  split
  · exact C
  · rename_i l hl
    split
    · exact C
    · rename_i hk
      have hk : l.drv = .ipa := Decidable.not_not.1 hk
      refine upd_ok C n (fun _ => rfl) ?_
      intro x hx L e
      have hxl : x = l := mem_unique C hx (find_some hl).1 (e.trans (find_some hl).2.symm)
      subst hxl
      refine ⟨L.num, L.port, L.timeout, L.ka, fun h => absurd hk h, ?_, L.pcap, L.sock⟩
      intro j v h
      have h : (if i ≠ 0 then some (i, w) else none) = some (j, v) := h
      split at h
      · rename_i hi
        cases h
        rcases hv with h | h
        · exact absurd h hi
        · exact h
      · simp at h

/-- every command within its ranges keeps the invariant -/
theorem exec_ok {c c' : Cfg} (C : CfgOk c) {ok r : Bool} {cmd : Cmd} (hv : cmd.valid = true) (h : exec c ok cmd = .ok (c', r)) : CfgOk c' := by
  cases cmd with
  | driver n d =>
    simp only [exec] at h
    split at h
    · cases h; exact C
    · rename_i hf
      split at h
      · cases h
        have hn := find_none hf
        refine ⟨?_, ?_, C.dscp, C.prio⟩
        · show ((c.lines ++ [newLine n d]).map Line.num).Nodup
          rw [List.map_append, List.nodup_append]
          refine ⟨C.nodup, by simp, ?_⟩
          intro a ha b hb e
          obtain ⟨l, hl, rfl⟩ := List.mem_map.1 ha
          have : b = n := by simpa [newLine] using hb
          exact hn l hl (e.trans this)
        · intro l hl
          rcases List.mem_append.1 hl with hl | hl
          · exact C.line l hl
          · cases List.mem_singleton.1 hl
            exact newLine_ok (by simpa [Cmd.valid] using hv) d
      · cases h; exact C
  | port n p =>
    have := onLine_ok C n (f := fun l => { l with port := p }) (fun _ => rfl) (fun l L => ⟨L.num, by
      simp [Cmd.valid] at hv; exact hv.2, L.timeout, L.ka, L.kaDrv, L.kap, L.pcap, L.sock⟩)
    simp only [exec] at h
    rw [show c' = (onLine c n (fun l => { l with port := p })).1 from (congrArg Prod.fst (Except.ok.inj h)).symm]; exact this
  | socket n s =>
    simp only [exec] at h
    split at h
    · cases h; exact C
    · rename_i hs
      have := onLine_ok C n (f := fun l => { l with sock := some s }) (fun _ => rfl) (fun l L => ⟨L.num, L.port, L.timeout, L.ka, L.kaDrv, L.kap, L.pcap, by
        intro t ht
        have : s = t := Option.some.inj ht
        subst this; omega⟩)
      rw [show c' = (onLine c n (fun l => { l with sock := some s })).1 from (congrArg Prod.fst (Except.ok.inj h)).symm]; exact this
  | name n s =>
    have := onLine_ok C n (f := fun l => { l with name := some s }) (fun _ => rfl) (fun l L => ⟨L.num, L.port, L.timeout, L.ka, L.kaDrv, L.kap, L.pcap, L.sock⟩)
    simp only [exec] at h
    rw [show c' = (onLine c n (fun l => { l with name := some s })).1 from (congrArg Prod.fst (Except.ok.inj h)).symm]; exact this
  | timeout n t =>
    have := onLine_ok C n (f := fun l => { l with timeout := t }) (fun _ => rfl) (fun l L => ⟨L.num, L.port, by
      simp [Cmd.valid] at hv; exact hv.2, L.ka, L.kaDrv, L.kap, L.pcap, L.sock⟩)
    simp only [exec] at h
    rw [show c' = (onLine c n (fun l => { l with timeout := t })).1 from (congrArg Prod.fst (Except.ok.inj h)).symm]; exact this
  | keepalive n =>
    simp only [exec] at h
    rw [show c' = (setKeepalive c n (-1) (-1) (-1)).1 from (congrArg Prod.fst (Except.ok.inj h)).symm]
    exact setKeepalive_ok C n (.inl ⟨rfl, rfl, rfl⟩)
  | keepaliveP n a b i =>
    simp only [exec] at h
    rw [show c' = (setKeepalive c n a b i).1 from (congrArg Prod.fst (Except.ok.inj h)).symm]
    refine setKeepalive_ok C n (.inr (.inr ?_))
    simp only [Cmd.valid, Bool.and_eq_true, decide_eq_true_eq] at hv
    omega
  | noKeepalive n =>
    simp only [exec] at h
    rw [show c' = (setKeepalive c n 0 0 0).1 from (congrArg Prod.fst (Except.ok.inj h)).symm]
    exact setKeepalive_ok C n (.inr (.inl ⟨rfl, rfl, rfl⟩))
  | ipaKeepalive n i w =>
    simp only [exec] at h
    rw [show c' = (setIpaKeepalive c n i w).1 from (congrArg Prod.fst (Except.ok.inj h)).symm]
    refine setIpaKeepalive_ok C n (.inr ?_)
    simp only [Cmd.valid, Bool.and_eq_true, decide_eq_true_eq] at hv
    omega
  | noIpaKeepalive n =>
    simp only [exec] at h
    rw [show c' = (setIpaKeepalive c n 0 0).1 from (congrArg Prod.fst (Except.ok.inj h)).symm]
    exact setIpaKeepalive_ok C n (.inl rfl)
  | pcap n f =>
    simp only [exec] at h
    split at h
    · cases h; exact C
    · split at h
      · cases h
        exact upd_ok C n (fun _ => rfl) (fun l _ L _ => ⟨L.num, L.port, L.timeout, L.ka, L.kaDrv, L.kap, rfl, L.sock⟩)
      · cases h; exact C
  | noPcap n =>
    simp only [exec] at h
    split at h
    · simp at h
    · cases h
      exact upd_ok C n (fun _ => rfl) (fun l _ L _ => ⟨L.num, L.port, L.timeout, L.ka, L.kaDrv, L.kap, rfl, L.sock⟩)
  | bind a =>
    simp only [exec] at h
    cases h
    exact ⟨C.nodup, C.line, C.dscp, C.prio⟩
  | dscp oml v =>
    simp only [exec] at h
    have hv : v ≤ 63 := by simpa [Cmd.valid] using hv
    cases oml <;> cases h
    · exact ⟨C.nodup, C.line, ⟨C.dscp.1, by show v % 256 ≤ 63; omega⟩, C.prio⟩
    · exact ⟨C.nodup, C.line, ⟨by show v % 256 ≤ 63; omega, C.dscp.2⟩, C.prio⟩
  | prio oml v =>
    simp only [exec] at h
    cases oml <;> cases h
    · exact ⟨C.nodup, C.line, C.dscp, ⟨C.prio.1, by show v % 256 ≤ 255; omega⟩⟩
    · exact ⟨C.nodup, C.line, C.dscp, ⟨by show v % 256 ≤ 255; omega, C.prio.2⟩⟩

theorem empty_ok : CfgOk empty := ⟨by simp [empty], by simp [empty], by decide, by decide⟩

theorem execAll_ok {cmds : List (Bool × Cmd)} : ∀ {c c' : Cfg} {rs : List Bool}, CfgOk c → AllValid cmds → execAll c cmds = .ok (c', rs) → CfgOk c' := by
  induction cmds with
  | nil => intro c c' rs C _ h; cases h; exact C
  | cons x cmds ih =>
    obtain ⟨ok, cmd⟩ := x
    intro c c' rs C hv h
    simp only [execAll, bind, Except.bind] at h
    split at h
    · simp at h
    · rename_i v hx
      split at h
      · simp at h
      · rename_i u hu
        cases h
        exact ih (exec_ok C (hv (ok, cmd) (by simp)) (c' := v.1) (r := v.2) hx) (fun y hy => hv y (List.mem_cons_of_mem _ hy)) (c' := u.1) (rs := u.2) hu

/-! ### Writing and reading -/

/-- all commands accepted, the configuration afterwards -/
def Reads (c : Cfg) (cmds : List Cmd) (c' : Cfg) : Prop := execAll c (reread cmds) = .ok (c', List.replicate cmds.length true)

theorem Reads.nil (c : Cfg) : Reads c [] c := rfl

theorem Reads.cons {c d e : Cfg} {cmd : Cmd} {cmds : List Cmd} (h : exec c true cmd = .ok (d, true)) (h2 : Reads d cmds e) : Reads c (cmd :: cmds) e := by
  unfold Reads at h2 ⊢
  simp only [reread, List.map_cons, execAll, bind, Except.bind, h]
  simp only [reread] at h2
  rw [h2]
  rfl

theorem Reads.append {cmds : List Cmd} : ∀ {c d e : Cfg} {cmds2 : List Cmd}, Reads c cmds d → Reads d cmds2 e → Reads c (cmds ++ cmds2) e := by
  induction cmds with
  | nil =>
    intro c d e cmds2 h h2
    have : c = d := by
      unfold Reads at h
      simp only [reread, List.map_nil, execAll] at h
      cases h; rfl
    subst this; exact h2
  | cons x cmds ih =>
    intro c d e cmds2 h h2
    unfold Reads at h
    simp only [reread, List.map_cons, execAll, bind, Except.bind] at h
    split at h
    · simp at h
    · rename_i v hx
      split at h
      · simp at h
      · rename_i u hu
        have h := Except.ok.inj h
        have e1 : u.1 = d := congrArg Prod.fst h
        have e2 : v.2 :: u.2 = true :: List.replicate cmds.length true := congrArg Prod.snd h
        injection e2 with e2 e3
        have hx' : exec c true x = .ok (v.1, true) := by rw [hx, ← e2]
        have hu' : Reads v.1 cmds d := by
          unfold Reads; simp only [reread]; rw [hu, ← e1, ← e3]
        exact Reads.cons hx' (ih hu' h2)

/-- the configuration `c` with the lines `ls` -/
abbrev withLines (c : Cfg) (ls : List Line) : Cfg := ⟨ls, c.bind, c.omlDscp, c.rslDscp, c.omlPrio, c.rslPrio⟩

theorem find_last {c : Cfg} {ls : List Line} {n : Nat} (hn : ∀ x ∈ ls, x.num ≠ n) {l : Line} (e : l.num = n) : find (withLines c (ls ++ [l])) n = some l := by
  subst e
  simp only [find, List.find?_append]
  rw [List.find?_eq_none.2 (by intro x hx; simpa using hn x hx)]
  simp

theorem upd_last {c : Cfg} {ls : List Line} {n : Nat} (hn : ∀ x ∈ ls, x.num ≠ n) {l : Line} (e : l.num = n) (f : Line → Line) :
    upd (withLines c (ls ++ [l])) n f = withLines c (ls ++ [f l]) := by
  simp only [upd, modify_last hn e]

theorem onLine_last {c : Cfg} {ls : List Line} {n : Nat} (hn : ∀ x ∈ ls, x.num ≠ n) {l : Line} (e : l.num = n) (f : Line → Line) :
    onLine (withLines c (ls ++ [l])) n f = (withLines c (ls ++ [f l]), true) := by
  simp only [onLine, find_last hn e, upd_last hn e]

/-- reading what is written for a line gives the line -/
theorem writeLine_reads {c : Cfg} {ls : List Line} {l : Line} (L : LineOk l) (hs : l.sock = none) (hn : ∀ x ∈ ls, x.num ≠ l.num) :
    Reads (withLines c ls) (writeLine l) (withLines c (ls ++ [l])) := by
  obtain ⟨num, drv, port, name, sock, timeout, idle, probes, interval, kap, pcap, pcapFd⟩ := l
  have hs : sock = none := hs
  have hn : ∀ x ∈ ls, x.num ≠ num := hn
  have Lka := L.ka
  have Ldrv : drv ≠ .ipa → probes ≤ 0 ∧ kap = none := L.kaDrv
  have Lkap : ∀ i w, kap = some (i, w) → 1 ≤ i ∧ i ≤ 300 ∧ 1 ≤ w ∧ w ≤ 300 := L.kap
  have Lp : pcapFd = pcap.isSome := L.pcap
  simp only [KaOk] at Lka
  clear L
  subst hs
  unfold writeLine
  -- driver
  have s1 : exec (withLines c ls) true (.driver num drv) = .ok (withLines c (ls ++ [newLine num drv]), true) := by
    have : find (withLines c ls) num = none := find_none_iff.2 hn
    simp only [exec, this, if_true]
  -- port
  have s2 : exec (withLines c (ls ++ [newLine num drv])) true (.port num port) =
      .ok (withLines c (ls ++ [⟨num, drv, port, none, none, 0, -1, -1, -1, none, none, false⟩]), true) := by
    simp only [exec]
    rw [onLine_last hn (l := newLine num drv) (by rfl)]; rfl
  have a1 := Reads.cons s1 (Reads.cons s2 (Reads.nil _))
  -- name
  have a2 : Reads (withLines c (ls ++ [⟨num, drv, port, none, none, 0, -1, -1, -1, none, none, false⟩]))
      (writeName num name) (withLines c (ls ++ [⟨num, drv, port, name, none, 0, -1, -1, -1, none, none, false⟩])) := by
    cases name with
    | none => exact Reads.nil _
    | some s =>
      refine Reads.cons ?_ (Reads.nil _)
      simp only [exec]
      rw [onLine_last hn (l := ⟨num, drv, port, none, none, 0, -1, -1, -1, none, none, false⟩) (by rfl)]
  -- timeout
  have a3 : Reads (withLines c (ls ++ [⟨num, drv, port, name, none, 0, -1, -1, -1, none, none, false⟩]))
      (if timeout ≠ 0 then [.timeout num timeout] else []) (withLines c (ls ++ [⟨num, drv, port, name, none, timeout, -1, -1, -1, none, none, false⟩])) := by
    by_cases h : timeout ≠ 0
    · rw [if_pos h]
      refine Reads.cons ?_ (Reads.nil _)
      simp only [exec]
      rw [onLine_last hn (l := ⟨num, drv, port, name, none, 0, -1, -1, -1, none, none, false⟩) (by rfl)]
    · rw [if_neg h]
      have : timeout = 0 := by omega
      subst this; exact Reads.nil _
  -- keepalive
  have a4 : Reads (withLines c (ls ++ [⟨num, drv, port, name, none, timeout, -1, -1, -1, none, none, false⟩]))
      (writeKeepalive ⟨num, drv, port, name, none, timeout, idle, probes, interval, kap, pcap, pcapFd⟩)
      (withLines c (ls ++ [⟨num, drv, port, name, none, timeout, idle, probes, interval, none, none, false⟩])) := by
    have hset : ∀ a b i : Int, (b ≠ 0 → drv = .ipa) → setKeepalive (withLines c (ls ++ [⟨num, drv, port, name, none, timeout, -1, -1, -1, none, none, false⟩])) num a b i =
        (withLines c (ls ++ [⟨num, drv, port, name, none, timeout, a, b, i, none, none, false⟩]), true) := by
      intro a b i hd
      simp only [setKeepalive]
      rw [find_last hn (l := ⟨num, drv, port, name, none, timeout, -1, -1, -1, none, none, false⟩) (by rfl)]
      have : ¬ (drv.hasKeepalive = false ∧ b ≠ 0) := by
        rintro ⟨h1, h2⟩
        rw [hd h2] at h1; simp [Drv.hasKeepalive] at h1
      simp only [if_neg this]
      rw [upd_last hn (l := ⟨num, drv, port, name, none, timeout, -1, -1, -1, none, none, false⟩) (by rfl)]
    simp only [writeKeepalive]
    rcases Lka with ⟨h1, h2, h3⟩ | ⟨h1, h2, h3⟩ | h
    · have h1 : idle = -1 := h1
      have h2 : probes = -1 := h2
      have h3 : interval = -1 := h3
      subst h1; subst h2; subst h3
      exact Reads.nil _
    · have h1 : idle = 0 := h1
      have h2 : probes = 0 := h2
      have h3 : interval = 0 := h3
      subst h1; subst h2; subst h3
      refine Reads.cons ?_ (Reads.nil _)
      simp only [exec]
      rw [hset 0 0 0 (fun h => absurd rfl h)]
    · have h : 1 ≤ idle ∧ idle ≤ 300 ∧ 1 ≤ probes ∧ probes ≤ 20 ∧ 1 ≤ interval ∧ interval ≤ 300 := h
      rw [if_neg (by omega), if_pos (by omega)]
      refine Reads.cons ?_ (Reads.nil _)
      simp only [exec]
      have e1 : ((idle.toNat : Nat) : Int) = idle := Int.toNat_of_nonneg (by omega)
      have e2 : ((probes.toNat : Nat) : Int) = probes := Int.toNat_of_nonneg (by omega)
      have e3 : ((interval.toNat : Nat) : Int) = interval := Int.toNat_of_nonneg (by omega)
      rw [e1, e2, e3, hset _ _ _ (fun _ => by
        apply Decidable.byContradiction
        intro hd
        have := (Ldrv hd).1
        omega)]
  -- ipa keepalive
  have a5 : Reads (withLines c (ls ++ [⟨num, drv, port, name, none, timeout, idle, probes, interval, none, none, false⟩]))
      (writeKap num kap)
      (withLines c (ls ++ [⟨num, drv, port, name, none, timeout, idle, probes, interval, kap, none, false⟩])) := by
    cases kap with
    | none => exact Reads.nil _
    | some p =>
      obtain ⟨i, w⟩ := p
      have hi := Lkap i w rfl
      have hd : drv = .ipa := by
        apply Decidable.byContradiction
        intro hd
        have := (Ldrv hd).2
        simp at this
      refine Reads.cons ?_ (Reads.nil _)
      simp only [exec, setIpaKeepalive]
      rw [find_last hn (l := ⟨num, drv, port, name, none, timeout, idle, probes, interval, none, none, false⟩) (by rfl)]
      have h1 : ¬ drv ≠ .ipa := Decidable.not_not.2 hd
      have h2 : i ≠ 0 := by omega
      simp only [if_neg h1, if_pos h2]
      rw [upd_last hn (l := ⟨num, drv, port, name, none, timeout, idle, probes, interval, none, none, false⟩) (by rfl)]
  -- pcap
  have a6 : Reads (withLines c (ls ++ [⟨num, drv, port, name, none, timeout, idle, probes, interval, kap, none, false⟩]))
      (writePcap num pcap)
      (withLines c (ls ++ [⟨num, drv, port, name, none, timeout, idle, probes, interval, kap, pcap, pcapFd⟩])) := by
    subst Lp
    cases pcap with
    | none => exact Reads.nil _
    | some f =>
      refine Reads.cons ?_ (Reads.nil _)
      simp only [exec]
      rw [find_last hn (l := ⟨num, drv, port, name, none, timeout, idle, probes, interval, kap, none, false⟩) (by rfl)]
      simp only [if_true]
      rw [upd_last hn (l := ⟨num, drv, port, name, none, timeout, idle, probes, interval, kap, none, false⟩) (by rfl)]
      rfl
  exact ((((a1.append a2).append a3).append a4).append a5).append a6

theorem writeLines_reads : ∀ {ls : List Line} {c : Cfg} {pre : List Line}, (∀ l ∈ ls, LineOk l ∧ l.sock = none) → ((pre ++ ls).map Line.num).Nodup →
    Reads (withLines c pre) (ls.map writeLine).flatten (withLines c (pre ++ ls)) := by
  intro ls
  induction ls with
  | nil => intro c pre _ _; simp only [List.map_nil, List.flatten_nil, List.append_nil]; exact Reads.nil _
  | cons l ls ih =>
    intro c pre h hn
    simp only [List.map_cons, List.flatten_cons]
    have h1 := h l (by simp)
    have hne : ∀ x ∈ pre, x.num ≠ l.num := by
      intro x hx e
      rw [List.map_append, List.nodup_append] at hn
      exact hn.2.2 _ (List.mem_map.2 ⟨x, hx, rfl⟩) _ (List.mem_map.2 ⟨l, by simp, rfl⟩) e
    have e : pre ++ l :: ls = (pre ++ [l]) ++ ls := by simp
    refine (writeLine_reads h1.1 h1.2 hne).append ?_
    rw [e]
    refine ih (fun x hx => h x (List.mem_cons_of_mem _ hx)) ?_
    rw [← e]; exact hn

theorem opt_reads {c d : Cfg} {p : Prop} [Decidable p] {cmd : Cmd} (h : p → exec c true cmd = .ok (d, true)) (h2 : ¬ p → c = d) : Reads c (if p then [cmd] else []) d := by
  by_cases hp : p
  · rw [if_pos hp]; exact Reads.cons (h hp) (Reads.nil _)
  · rw [if_neg hp, h2 hp]; exact Reads.nil _

/-- reading what is written gives a configuration that is the same -/
theorem write_reads {c : Cfg} (C : CfgOk c) (hl : c.lines ≠ []) (hs : ∀ l ∈ c.lines, l.sock = none) : ∃ d, Reads empty (write c) d ∧ Same c d := by
  obtain ⟨lines, bind, od, rd, op, rp⟩ := c
  have hb : ∃ b : Option Text, b.getD anyAddr = bind.getD anyAddr ∧
      Reads ⟨lines, none, 0, 0, 0, 0⟩ (if bind.getD anyAddr ≠ anyAddr then [.bind (bind.getD anyAddr)] else []) ⟨lines, b, 0, 0, 0, 0⟩ := by
    by_cases h : bind.getD anyAddr ≠ anyAddr
    · refine ⟨some (bind.getD anyAddr), rfl, ?_⟩
      rw [if_pos h]
      exact Reads.cons rfl (Reads.nil _)
    · refine ⟨none, (Decidable.not_not.1 h).symm, ?_⟩
      rw [if_neg h]; exact Reads.nil _
  obtain ⟨b, e, r⟩ := hb
  refine ⟨⟨lines, b, od, rd, op, rp⟩, ?_, rfl, e.symm, rfl, rfl, rfl, rfl⟩
  have hd := C.dscp
  have hp := C.prio
  simp only at hd hp
  unfold write
  rw [if_neg hl]
  have r0 : Reads empty (lines.map writeLine).flatten ⟨lines, none, 0, 0, 0, 0⟩ := by
    have := writeLines_reads (ls := lines) (c := empty) (pre := []) (fun l h => ⟨C.line l h, hs l h⟩) (by simpa using C.nodup)
    simpa [empty] using this
  have r1 : Reads ⟨lines, b, 0, 0, 0, 0⟩ (if od ≠ 0 then [.dscp true od] else []) ⟨lines, b, od, 0, 0, 0⟩ :=
    opt_reads (fun _ => by simp [exec]; omega) (fun h => by rw [Decidable.not_not.1 h])
  have r2 : Reads ⟨lines, b, od, 0, 0, 0⟩ (if rd ≠ 0 then [.dscp false rd] else []) ⟨lines, b, od, rd, 0, 0⟩ :=
    opt_reads (fun _ => by simp [exec]; omega) (fun h => by rw [Decidable.not_not.1 h])
  have r3 : Reads ⟨lines, b, od, rd, 0, 0⟩ (if op ≠ 0 then [.prio true op] else []) ⟨lines, b, od, rd, op, 0⟩ :=
    opt_reads (fun _ => by simp [exec]; omega) (fun h => by rw [Decidable.not_not.1 h])
  have r4 : Reads ⟨lines, b, od, rd, op, 0⟩ (if rp ≠ 0 then [.prio false rp] else []) ⟨lines, b, od, rd, op, rp⟩ :=
    opt_reads (fun _ => by simp [exec]; omega) (fun h => by rw [Decidable.not_not.1 h])
  exact ((((r0.append r).append r1).append r2).append r3).append r4

/-- what is written is within the ranges of the commands -/
theorem write_valid {c : Cfg} (C : CfgOk c) : ∀ cmd ∈ write c, cmd.valid = true := by
  intro cmd h
  unfold write at h
  split at h
  · simp at h
  · simp only [List.mem_append] at h
    have hd := C.dscp
    have hp := C.prio
    rcases h with ((((h | h) | h) | h) | h) | h
    · obtain ⟨x, hx, hc⟩ := List.mem_flatten.1 h
      obtain ⟨l, hl, rfl⟩ := List.mem_map.1 hx
      have L := C.line l hl
      have h1 := L.num; have h2 := L.port; have h3 := L.timeout
      simp only [writeLine, List.mem_append] at hc
      rcases hc with ((((hc | hc) | hc) | hc) | hc) | hc
      · simp only [List.mem_cons, List.not_mem_nil, or_false] at hc
        rcases hc with rfl | rfl <;> simp [Cmd.valid, h1, h2]
      · unfold writeName at hc
        split at hc
        · rw [List.mem_singleton] at hc; subst hc; simp [Cmd.valid, h1]
        · simp at hc
      · split at hc
        · rw [List.mem_singleton] at hc; subst hc; simp [Cmd.valid, h1, h3]
        · simp at hc
      · unfold writeKeepalive at hc
        split at hc
        · rw [List.mem_singleton] at hc; subst hc; simp [Cmd.valid, h1]
        · rename_i hp0
          split at hc
          · rename_i hx
            rw [List.mem_singleton] at hc; subst hc
            rcases L.ka with h | h | h
            · omega
            · exact absurd h.2.1 hp0
            · simp only [Cmd.valid, Bool.and_eq_true, decide_eq_true_eq]
              omega
          · simp at hc
      · unfold writeKap at hc
        split at hc
        · rename_i i w hk
          rw [List.mem_singleton] at hc; subst hc
          have := L.kap i w hk
          simp only [Cmd.valid, Bool.and_eq_true, decide_eq_true_eq]
          omega
        · simp at hc
      · unfold writePcap at hc
        split at hc
        · rw [List.mem_singleton] at hc; subst hc; simp [Cmd.valid, h1]
        · simp at hc
    · split at h
      · rw [List.mem_singleton] at h; subst h; rfl
      · simp at h
    · split at h
      · rw [List.mem_singleton] at h; subst h; simp [Cmd.valid, hd.1]
      · simp at h
    · split at h
      · rw [List.mem_singleton] at h; subst h; simp [Cmd.valid, hd.2]
      · simp at h
    · split at h
      · rw [List.mem_singleton] at h; subst h; simp [Cmd.valid, hp.1]
      · simp at h
    · split at h
      · rw [List.mem_singleton] at h; subst h; simp [Cmd.valid, hp.2]
      · simp at h

end Verif.Vty
