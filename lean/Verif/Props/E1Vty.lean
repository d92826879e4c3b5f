import Verif.Proof.E1Vty
/-!
# C124, C126, C127: the configuration of E1 lines
-/
set_option maxRecDepth 10000
namespace Verif.Vty

/-! ### C124 -/

/-- **C124**: for every line configured by any sequence of commands, the TCP keepalive is off exactly after `no keepalive`;
else the configured values are set, or 30 s, 3 s and 10 probes by default; the user timeout is computed without overflow, and is not
shorter than the time after which the probes have failed -/
theorem C124_tcp {cmds : List (Bool × Cmd)} (hv : AllValid cmds) {c : Cfg} {rs : List Bool} (h : execAll empty cmds = .ok (c, rs))
    {l : Line} (hl : l ∈ c.lines) :
    (l.probes = 0 ∧ tcp l = .ok none) ∨
    ∃ t, tcp l = .ok (some t) ∧ l.probes ≠ 0 ∧
      ((l.idle = -1 ∧ l.probes = -1 ∧ l.interval = -1 ∧ t.idle = 30 ∧ t.interval = 3 ∧ t.count = 10) ∨
       (t.idle = l.idle ∧ t.interval = l.interval ∧ t.count = l.probes ∧ 1 ≤ l.idle ∧ 1 ≤ l.probes ∧ 1 ≤ l.interval)) ∧
      1000 * (t.idle + t.count * t.interval) ≤ t.userTimeout ∧ t.userTimeout ≤ 12000000 := by
  have L := (execAll_ok empty_ok hv h).line l hl
  rcases L.ka with ⟨h1, h2, h3⟩ | ⟨h1, h2, h3⟩ | hk
  · refine .inr ⟨⟨30, 3, 10, 330000⟩, ?_, by omega, .inl ⟨h1, h2, h3, rfl, rfl, rfl⟩, by decide, by decide⟩
    simp only [tcp, h1, h2, h3]
    rfl
  · exact .inl ⟨h2, by simp only [tcp, h2, if_true]⟩
  · have hb1 : l.probes * l.interval ≤ 20 * 300 := Int.mul_le_mul (by omega) (by omega) (by omega) (by omega)
    have hb2 : l.probes * l.idle ≤ 20 * 300 := Int.mul_le_mul (by omega) (by omega) (by omega) (by omega)
    have hb3 : l.idle ≤ l.probes * l.idle := by
      have := Int.mul_le_mul_of_nonneg_right (show (1 : Int) ≤ l.probes by omega) (show (0 : Int) ≤ l.idle by omega)
      omega
    have hb4 : 0 ≤ l.probes * l.interval := Int.mul_nonneg (by omega) (by omega)
    have e : 1000 * l.probes * (l.interval + l.idle) = 1000 * (l.probes * l.interval) + 1000 * (l.probes * l.idle) := by
      rw [Int.mul_add, Int.mul_assoc, Int.mul_assoc]
    refine .inr ⟨⟨l.idle, l.interval, l.probes, 1000 * l.probes * (l.interval + l.idle)⟩, ?_, by omega,
      .inr ⟨rfl, rfl, rfl, by omega, by omega, by omega⟩, by simp only []; omega, by simp only []; omega⟩
    have h1 : ¬ l.probes = 0 := by omega
    have h2 : l.idle > 0 := by omega
    have h3 : l.interval > -1 := by omega
    have h4 : l.probes > 0 := by omega
    simp only [tcp, if_neg h1, if_pos h2, if_pos h3, if_pos h4, chk, bind, Except.bind]
    rw [if_pos (by omega)]
    simp only []
    rw [if_pos (by omega)]
    simp only []
    rw [if_pos (by omega)]

/-- the commands are needed: the API allows values whose timeout overflows -/
example : tcp ⟨0, .ipa, 0, none, none, 0, 2000000, 1000, 2000, none, none, false⟩ = .error .ub := by decide +kernel

/-! ### C127 -/

theorem find_upd {c : Cfg} {n : Nat} {l : Line} (h : find c n = some l) {f : Line → Line} (hf : Keeps f) : find (upd c n f) n = some (f l) :=
  modify_find hf h

theorem find_upd_ne {c : Cfg} {n m : Nat} (hm : m ≠ n) {f : Line → Line} (hf : Keeps f) : find (upd c n f) m = find c m := modify_other hf hm _

/-- the shape of what a command does -/
theorem exec_cases {c : Cfg} {ok : Bool} {cmd : Cmd} {n : Nat} (hn : cmd.line = some n) (hd : ∀ d, cmd ≠ .driver n d) {l : Line} (hl : find c n = some l)
    (hc : cmd.valid = true) :
    (cmd.suits ok l ∧ exec c ok cmd = .ok (upd c n cmd.effect, true)) ∨ (¬ cmd.suits ok l ∧ exec c ok cmd = .ok (c, false)) := by
  have hka : ∀ (a b i : Int), b ≠ 0 → ((l.drv = .ipa ∧ setKeepalive c n a b i = (upd c n (fun l => { l with idle := a, probes := b, interval := i }), true)) ∨
      (¬ l.drv = .ipa ∧ setKeepalive c n a b i = (c, false))) := by
    intro a b i hb
    simp only [setKeepalive, hl]
    by_cases h : l.drv = .ipa
    · refine .inl ⟨h, ?_⟩
      rw [if_neg (by rw [h]; simp [Drv.hasKeepalive])]
    · refine .inr ⟨h, ?_⟩
      rw [if_pos ⟨by cases hh : l.drv <;> simp_all [Drv.hasKeepalive], hb⟩]
  cases cmd with
  | driver m d => cases hn; exact absurd rfl (hd d)
  | port m p => cases hn; exact .inl ⟨trivial, by simp only [exec, onLine, hl]; rfl⟩
  | socket m s =>
    cases hn
    by_cases h : s.length > 107
    · exact .inr ⟨by simp only [Cmd.suits]; omega, by simp only [exec, if_pos h]⟩
    · exact .inl ⟨by simp only [Cmd.suits]; omega, by simp only [exec, if_neg h, onLine, hl]; rfl⟩
  | name m s => cases hn; exact .inl ⟨trivial, by simp only [exec, onLine, hl]; rfl⟩
  | timeout m t => cases hn; exact .inl ⟨trivial, by simp only [exec, onLine, hl]; rfl⟩
  | keepalive m =>
    cases hn
    rcases hka (-1) (-1) (-1) (by decide) with ⟨h1, h2⟩ | ⟨h1, h2⟩
    · exact .inl ⟨h1, by simp only [exec, h2]; rfl⟩
    · exact .inr ⟨h1, by simp only [exec, h2]⟩
  | keepaliveP m a b i =>
    cases hn
    have hb : (b : Int) ≠ 0 := by
      simp only [Cmd.valid, Bool.and_eq_true, decide_eq_true_eq] at hc
      omega
    rcases hka a b i hb with ⟨h1, h2⟩ | ⟨h1, h2⟩
    · exact .inl ⟨h1, by simp only [exec, h2]; rfl⟩
    · exact .inr ⟨h1, by simp only [exec, h2]⟩
  | noKeepalive m =>
    cases hn
    refine .inl ⟨trivial, ?_⟩
    simp only [exec, setKeepalive, hl]
    rw [if_neg (by simp)]
    rfl
  | ipaKeepalive m i w =>
    cases hn
    have hi : i ≠ 0 := by
      simp only [Cmd.valid, Bool.and_eq_true, decide_eq_true_eq] at hc
      omega
    simp only [exec, setIpaKeepalive, hl]
    by_cases h : l.drv = .ipa
    · refine .inl ⟨h, ?_⟩
      rw [if_neg (Decidable.not_not.2 h)]
      simp only [if_pos hi]
      rfl
    · exact .inr ⟨h, by rw [if_pos h]⟩
  | noIpaKeepalive m =>
    cases hn
    simp only [exec, setIpaKeepalive, hl]
    by_cases h : l.drv = .ipa
    · refine .inl ⟨h, ?_⟩
      rw [if_neg (Decidable.not_not.2 h)]
      rfl
    · exact .inr ⟨h, by rw [if_pos h]⟩
  | pcap m f =>
    cases hn
    cases ok with
    | true => exact .inl ⟨rfl, by simp only [exec, hl, if_true]; rfl⟩
    | false => exact .inr ⟨by simp [Cmd.suits], by simp only [exec, hl]; rfl⟩
  | noPcap m => cases hn; exact .inl ⟨trivial, by simp only [exec, hl]; rfl⟩
  | bind a => simp [Cmd.line] at hn
  | dscp o v => simp [Cmd.line] at hn
  | prio o v => simp [Cmd.line] at hn

theorem effect_keeps (cmd : Cmd) : Keeps cmd.effect := by intro l; cases cmd <;> rfl

/-- **C127**: a command on an existing line is accepted exactly if it suits the line; it then changes the line as meant, and
nothing else; refused, it changes nothing -/
theorem C127_effect {c : Cfg} {ok : Bool} {cmd : Cmd} (hc : cmd.valid = true) {n : Nat} (hn : cmd.line = some n) (hd : ∀ d, cmd ≠ .driver n d)
    {l : Line} (hl : find c n = some l) :
    ∃ c' r, exec c ok cmd = .ok (c', r) ∧ (r = true ↔ cmd.suits ok l) ∧ (r = false → c' = c) ∧
      (r = true → find c' n = some (cmd.effect l) ∧ (∀ m, m ≠ n → find c' m = find c m) ∧
        c'.lines.map Line.num = c.lines.map Line.num ∧
        (c'.bind, c'.omlDscp, c'.rslDscp, c'.omlPrio, c'.rslPrio) = (c.bind, c.omlDscp, c.rslDscp, c.omlPrio, c.rslPrio)) := by
  rcases exec_cases (ok := ok) hn hd hl hc with ⟨h1, h2⟩ | ⟨h1, h2⟩
  · exact ⟨_, _, h2, by simp [h1], by simp, fun _ => ⟨find_upd hl (effect_keeps cmd), fun m hm => find_upd_ne hm (effect_keeps cmd), modify_map (effect_keeps cmd) _, rfl⟩⟩
  · exact ⟨_, _, h2, by simp [h1], by simp, by simp⟩

/-- **C127**: commands that name a line that does not exist are refused without effect - all but `no e1_line pcap` -/
theorem C127_nonexistent_partial {c : Cfg} {ok : Bool} {cmd : Cmd} {n : Nat} (hn : cmd.line = some n) (hd : ∀ d, cmd ≠ .driver n d) (hp : cmd ≠ .noPcap n)
    (hl : find c n = none) : exec c ok cmd = .ok (c, false) := by
  cases cmd with
  | driver m d => cases hn; exact absurd rfl (hd d)
  | noPcap m => cases hn; exact absurd rfl hp
  | bind a => simp [Cmd.line] at hn
  | dscp o v => simp [Cmd.line] at hn
  | prio o v => simp [Cmd.line] at hn
  | socket m s =>
    cases hn
    simp only [exec, onLine, hl]
    split <;> rfl
  | port m s => cases hn; simp only [exec, onLine, hl]
  | name m s => cases hn; simp only [exec, onLine, hl]
  | timeout m s => cases hn; simp only [exec, onLine, hl]
  | keepalive m => cases hn; simp only [exec, setKeepalive, hl]
  | keepaliveP m a b i => cases hn; simp only [exec, setKeepalive, hl]
  | noKeepalive m => cases hn; simp only [exec, setKeepalive, hl]
  | ipaKeepalive m a b => cases hn; simp only [exec, setIpaKeepalive, hl]
  | noIpaKeepalive m => cases hn; simp only [exec, setIpaKeepalive, hl]
  | pcap m f => cases hn; simp only [exec, hl]

/-- **C127 violated**: `no e1_line <n> pcap` for a line that does not exist follows a null pointer, whatever is configured -/
theorem C127_noPcap_violated {c : Cfg} {n : Nat} (hl : find c n = none) (ok : Bool) : exec c ok (.noPcap n) = .error .badptr := by
  simp only [exec, hl]

/-- **C127**: no other command faults -/
theorem C127_safe {c : Cfg} {ok : Bool} {cmd : Cmd} {e : Fault} (h : exec c ok cmd = .error e) : ∃ n, cmd = .noPcap n ∧ find c n = none := by
  cases cmd with
  | noPcap n =>
    refine ⟨n, rfl, ?_⟩
    simp only [exec] at h
    split at h
    · assumption
    · simp at h
  | driver n d => simp only [exec] at h; split at h <;> (try split at h) <;> simp at h
  | pcap n f => simp only [exec] at h; split at h <;> (try split at h) <;> simp at h
  | socket n s => simp only [exec] at h; split at h <;> simp at h
  | _ => simp [exec] at h

/-- **C127**: creating a line succeeds exactly if there is none with this number and the driver can; it is then the last one, with
defaults; the others are as before -/
theorem C127_driver {c : Cfg} {ok : Bool} {n : Nat} {d : Drv} :
    ∃ c' r, exec c ok (.driver n d) = .ok (c', r) ∧ (r = true ↔ find c n = none ∧ ok = true) ∧ (r = false → c' = c) ∧
      (r = true → ∃ l, c'.lines = c.lines ++ [l] ∧ l.num = n ∧ l.drv = d ∧ l.idle = -1 ∧ l.probes = -1 ∧ l.interval = -1 ∧ l.kap = none ∧ l.pcap = none ∧
        l.timeout = 0 ∧ l.name = none ∧ l.sock = none) := by
  simp only [exec]
  cases hf : find c n with
  | some l => exact ⟨c, false, rfl, by simp, by simp, by simp⟩
  | none =>
    cases ok with
    | false => exact ⟨c, false, rfl, by simp, by simp, by simp⟩
    | true => exact ⟨_, true, rfl, by simp, by simp, fun _ => ⟨newLine n d, rfl, rfl, rfl, rfl, rfl, rfl, rfl, rfl, rfl, rfl, rfl⟩⟩

/-- **C127**: after every sequence of commands within their ranges, line numbers are unique, all values are in their ranges, keepalive is only
configured for lines of the IPA driver, and a trace is open exactly if it is configured -/
theorem C127_invariant {cmds : List (Bool × Cmd)} (hv : AllValid cmds) {c : Cfg} {rs : List Bool} (h : execAll empty cmds = .ok (c, rs)) : CfgOk c :=
  execAll_ok empty_ok hv h

/-- a configuration with three lines -/
def sample : List (Bool × Cmd) :=
  [(true, .driver 0 .ipa), (true, .driver 3 .e1d), (false, .driver 4 .dahdi), (true, .driver 0 .misdn), (true, .port 3 2), (true, .name 0 [65]),
   (true, .keepaliveP 0 30 5 10), (true, .keepaliveP 3 30 5 10), (true, .ipaKeepalive 0 20 5), (true, .noKeepalive 3), (true, .pcap 3 [47, 97]),
   (false, .pcap 0 [47, 98]), (true, .timeout 7 3), (true, .timeout 0 3), (true, .bind [49]), (true, .dscp true 46), (true, .prio false 6)]

theorem sample_run : execAll empty sample = .ok (
    ⟨[⟨0, .ipa, 0, some [65], none, 3, 30, 5, 10, some (20, 5), none, false⟩, ⟨3, .e1d, 2, none, none, 0, 0, 0, 0, none, some [47, 97], true⟩], some [49], 46, 0, 0, 6⟩,
    [true, true, false, false, true, true, true, false, true, true, true, false, false, true, true, true, true]) ∧ AllValid sample := by
  refine ⟨by decide +kernel, ?_⟩
  intro x hx
  revert x
  decide +kernel

/-! ### C126 -/

/-- **C126** for configurations with lines but without socket paths: what is written is within the ranges of the commands, and reading it
again is accepted completely and gives the same configuration -/
theorem C126_roundtrip_partial {cmds : List (Bool × Cmd)} (hv : AllValid cmds) {c : Cfg} {rs : List Bool} (h : execAll empty cmds = .ok (c, rs))
    (hl : c.lines ≠ []) (hs : ∀ l ∈ c.lines, l.sock = none) :
    (∀ cmd ∈ write c, cmd.valid = true) ∧ ∃ d, execAll empty (reread (write c)) = .ok (d, List.replicate (write c).length true) ∧ Same c d := by
  have C := execAll_ok empty_ok hv h
  exact ⟨write_valid C, write_reads C hl hs⟩

/-- the sample is such a configuration -/
example : ∃ c rs, execAll empty sample = .ok (c, rs) ∧ c.lines ≠ [] ∧ (∀ l ∈ c.lines, l.sock = none) ∧ write c =
    [.driver 0 .ipa, .port 0 0, .name 0 [65], .timeout 0 3, .keepaliveP 0 30 5 10, .ipaKeepalive 0 20 5, .driver 3 .e1d, .port 3 2, .noKeepalive 3, .pcap 3 [47, 97],
     .bind [49], .dscp true 46, .prio false 6] :=
  ⟨_, _, sample_run.1, by decide, by decide, by decide +kernel⟩

/-- no command for a socket path is ever written -/
theorem write_no_socket (c : Cfg) : ∀ n s, Cmd.socket n s ∉ write c := by
  intro n s h
  unfold write at h
  split at h
  · simp at h
  · simp only [List.mem_append] at h
    rcases h with ((((h | h) | h) | h) | h) | h
    · obtain ⟨x, hx, hc⟩ := List.mem_flatten.1 h
      obtain ⟨l, hl, rfl⟩ := List.mem_map.1 hx
      simp only [writeLine, List.mem_append] at hc
      rcases hc with ((((hc | hc) | hc) | hc) | hc) | hc
      · simp at hc
      · unfold writeName at hc; split at hc <;> simp at hc
      · split at hc <;> simp at hc
      · unfold writeKeepalive at hc; split at hc <;> (try split at hc) <;> simp at hc
      · unfold writeKap at hc; split at hc <;> simp at hc
      · unfold writePcap at hc; split at hc <;> simp at hc
    all_goals split at h <;> simp at h

/-- **C126 violated**: socket paths are lost, for every configuration that has one -/
theorem C126_socket_violated {c d : Cfg} {rs : List Bool} {l : Line} (hl : l ∈ c.lines) (hs : l.sock ≠ none)
    (h : execAll empty (reread (write c)) = .ok (d, rs)) : ¬ Same c d := by
  have key : ∀ {cmds : List Cmd} {e d : Cfg} {rs : List Bool}, (∀ n s, Cmd.socket n s ∉ cmds) → (∀ x ∈ e.lines, x.sock = none) →
      execAll e (reread cmds) = .ok (d, rs) → ∀ x ∈ d.lines, x.sock = none := by
    intro cmds
    induction cmds with
    | nil => intro e d rs _ he h; cases h; exact he
    | cons a cmds ih =>
      intro e d rs hn he h
      simp only [reread, List.map_cons, execAll, bind, Except.bind] at h
      split at h
      · simp at h
      · rename_i v hx
        split at h
        · simp at h
        · rename_i u hu
          cases h
          refine ih (fun n s hm => hn n s (List.mem_cons_of_mem _ hm)) ?_ (rs := u.2) (d := u.1) hu
          have hup : ∀ (n : Nat) (f : Line → Line), (∀ y, (f y).sock = y.sock) → ∀ y ∈ (upd e n f).lines, y.sock = none := by
            intro n f hf y hy
            rcases modify_mem hy with hy | ⟨z, hz, -, rfl⟩
            · exact he y hy
            · rw [hf]; exact he z hz
          have hol : ∀ (n : Nat) (f : Line → Line), (∀ y, (f y).sock = y.sock) → ∀ y ∈ (onLine e n f).1.lines, y.sock = none := by
            intro n f hf
            unfold onLine
            split
            · exact he
            · exact hup n f hf
          have hka : ∀ (n : Nat) (x b i : Int), ∀ y ∈ (setKeepalive e n x b i).1.lines, y.sock = none := by
            intro n x b i
            unfold setKeepalive
            split
            · exact he
            · split
              · exact he
              · exact hup _ _ (fun _ => rfl)
          have hik : ∀ (n x b : Nat), ∀ y ∈ (setIpaKeepalive e n x b).1.lines, y.sock = none := by
            intro n x b
            unfold setIpaKeepalive
            split
            · exact he
            · split
              · exact he
              · exact hup _ _ (fun _ => rfl)
          cases a with
          | socket n s => exact absurd (List.mem_cons_self) (hn n s)
          | driver n dd =>
            simp only [exec] at hx
            split at hx
            · cases hx; exact he
            · cases hx
              intro y hy
              rcases List.mem_append.1 hy with hy | hy
              · exact he y hy
              · cases List.mem_singleton.1 hy; rfl
          | port n p => cases hx; exact hol _ _ (fun _ => rfl)
          | name n p => cases hx; exact hol _ _ (fun _ => rfl)
          | timeout n p => cases hx; exact hol _ _ (fun _ => rfl)
          | keepalive n => cases hx; exact hka _ _ _ _
          | keepaliveP n x b i => cases hx; exact hka _ _ _ _
          | noKeepalive n => cases hx; exact hka _ _ _ _
          | ipaKeepalive n x b => cases hx; exact hik _ _ _
          | noIpaKeepalive n => cases hx; exact hik _ _ _
          | pcap n f =>
            simp only [exec] at hx
            split at hx
            · cases hx; exact he
            · cases hx; exact hup _ _ (fun _ => rfl)
          | noPcap n =>
            simp only [exec] at hx
            split at hx
            · simp at hx
            · cases hx; exact hup _ _ (fun _ => rfl)
          | bind x => cases hx; exact he
          | dscp o x => cases o <;> (cases hx; exact he)
          | prio o x => cases o <;> (cases hx; exact he)
  intro hsame
  have := key (write_no_socket c) (by simp [empty]) h l (hsame.1 ▸ hl)
  exact hs this

/-- a configuration with a socket path exists -/
example : ∃ c rs, execAll empty [(true, .driver 0 .unixsocket), (true, .socket 0 [47])] = .ok (c, rs) ∧ ∃ l ∈ c.lines, l.sock ≠ none :=
  ⟨⟨[⟨0, .unixsocket, 0, none, some [47], 0, -1, -1, -1, none, none, false⟩], none, 0, 0, 0, 0⟩, [true, true], by decide +kernel,
    ⟨0, .unixsocket, 0, none, some [47], 0, -1, -1, -1, none, none, false⟩, by decide, by decide⟩

/-- **C126 violated**: without lines, the settings of the IPA driver are lost -/
theorem C126_no_lines_violated {c : Cfg} (hl : c.lines = []) : write c = [] := by
  simp only [write, if_pos hl]

example : ∃ c rs, execAll empty [(true, .dscp true 46)] = .ok (c, rs) ∧ c.lines = [] ∧ ¬ Same c empty :=
  ⟨⟨[], none, 46, 0, 0, 0⟩, [true], rfl, rfl, fun h => by have := h.2.2.1; simp [empty] at this⟩

end Verif.Vty
