import Verif.Proof.E1Show
/-!
# C167: what the `show` commands print
-/
namespace Verif.Vty
open Verif.E1 (TsType)

theorem name_eq (d : Drv) : d.name = txt (drvText d) := by cases d <;> rfl

theorem tsName_eq (t : TsType) : tsName t = txt (typeText t) := by cases t <;> rfl

theorem dec2_eq (n : Nat) : dec2 n = txt ((if n < 10 then " " else "") ++ toString n) := by
  unfold dec2
  split
  · rw [txt_append, dec_eq]; rfl
  · rw [txt_append, dec_eq]; rfl

theorem tsRows_eq (n k : Nat) (t : TsType) (h : t ≠ .none) : tsRows n k t = [txt (tsText n k t)] := by
  unfold tsRows
  rw [if_neg h]
  simp only [tsText, txt_append, Nat.add_sub_cancel, dec2_eq, dec_eq, tsName_eq, ToString.toString, List.append_assoc]

theorem decI_eq (i : Int) : decI i = txt (toString i) := by
  cases i with
  | ofNat n =>
    rw [decI, if_neg (by simp), show (Int.ofNat n).natAbs = n from rfl, dec_eq]
    rfl
  | negSucc n =>
    rw [decI, if_pos (by simp [Int.negSucc_lt_zero]), show (Int.negSucc n).natAbs = n + 1 from rfl, dec_eq]
    rw [show toString (Int.negSucc n) = "-" ++ toString (n + 1) from rfl, txt_append]
    rfl

theorem kaVal_eq (i : Int) (u : String) : kaVal i (txt u) = txt (valText i u) := by
  unfold kaVal valText
  by_cases hi : i = -1
  · rw [if_neg (by simp [hi]), if_pos hi]
  · rw [if_pos hi, if_neg hi, decI_eq i]
    simp only [txt_append, ToString.toString]

theorem kaOk_range {l : Line} (h : KaOk l) : (l.idle = -1 ∨ 0 ≤ l.idle) ∧ (l.probes = -1 ∨ 0 ≤ l.probes) ∧ (l.interval = -1 ∨ 0 ≤ l.interval) := by
  rcases h with h | h | h <;> omega

theorem kaRows_eq (l : Line) : kaRows l = (kaText l).map txt := by
  unfold kaRows kaText
  split
  · rfl
  · rw [show ([] : Text) = txt "" from rfl, kaVal_eq, kaVal_eq, kaVal_eq]
    simp only [txt_append, List.map_cons, List.map_nil, ToString.toString]

theorem kapRows_eq (k : Option (Nat × Nat)) : kapRows k = (kapText k).map txt := by
  cases k with
  | none => rfl
  | some x =>
    obtain ⟨i, w⟩ := x
    simp only [kapRows, kapText, txt_append, List.map_cons, List.map_nil, ToString.toString, dec_eq, List.append_assoc]

theorem find_of_mem : ∀ {ls : List (Line × List TsType)} {x : Line × List TsType}, (ls.map (fun y => y.1.num)).Nodup → x ∈ ls →
    ls.find? (fun y => y.1.num == x.1.num) = some x := by
  intro ls
  induction ls with
  | nil => intro x _ h; simp at h
  | cons y ls ih =>
    intro x hn h
    rw [List.map_cons, List.nodup_cons] at hn
    rcases List.mem_cons.1 h with rfl | h
    · simp
    · rw [List.find?_cons_of_neg]
      · exact ih hn.2 h
      · simp only [beq_iff_eq]
        intro he
        exact hn.1 (he ▸ List.mem_map.2 ⟨x, h, rfl⟩)

theorem showLine_some (v : View) (n : Nat) : showLine v (some n) =
    match v.lines.find? (fun x => x.1.num == n) with
    | some x => (lineRows v.span x.1, true)
    | none => ([], false) := rfl

theorem showTs_some (v : View) (n : Nat) (slot : Option Nat) : showTs v (some n) slot =
    match v.lines.find? (fun x => x.1.num == n) with
    | none => ([txt "E1 line " ++ dec n ++ txt " is invalid"], false)
    | some x =>
      match slot with
      | none => (slotRows x.1.num 0 x.2, true)
      | some k =>
        match x.2[k]? with
        | none => ([txt "E1 timeslot " ++ dec k ++ txt " is invalid"], false)
        | some t => (tsRows x.1.num k t, true) := rfl

/-- **C167**: `show e1_line` of one line fails exactly if there is none with this number; what it prints of a line of a driver
without a show function of its own is this -/
theorem C167_line {v : View} (hv : ViewOk v) (n : Nat) :
    ((showLine v (some n)).2 = true ↔ ∃ x ∈ v.lines, x.1.num = n) ∧
    ((showLine v (some n)).2 = false → (showLine v (some n)).1 = []) ∧
    ∀ x ∈ v.lines, x.1.num = n →
      ∃ rows, (showLine v (some n)).1 = (txt s!"E1 Line Number {n}, Name " ++ x.1.name.getD [] ++ txt s!", Driver {drvText x.1.drv}") ::
          ((if x.1.drv = .ipa then (kaText x.1 ++ kapText x.1.kap).map txt else []) ++ (match x.1.pcap with | some f => [txt "PCAP " ++ f] | none => []) ++ rows) ∧
        (x.1.drv ≠ .dahdi → rows = []) ∧
        (x.1.drv = .dahdi → x.1.port < 128 → rows = [match v.span x.1.port with
          | none => txt s!"DAHDI Span {x.1.port + 1} non-existent"
          | some (base, num) => txt s!"DAHDI Span #{x.1.port + 1}, Base Nr {base}, Timeslots: {num}"]) ∧
        (128 ≤ x.1.port → rows = []) := by
  refine ⟨?_, ?_, ?_⟩
  · rw [showLine_some]
    constructor
    · intro h
      cases hf : v.lines.find? (fun x => x.1.num == n) with
      | none => rw [hf] at h; simp at h
      | some x => exact ⟨x, List.mem_of_find?_eq_some hf, by simpa using List.find?_some hf⟩
    · rintro ⟨x, hx, rfl⟩
      rw [find_of_mem hv.nodup hx]
  · rw [showLine_some]
    cases hf : v.lines.find? (fun x => x.1.num == n) with
    | none => simp
    | some x => simp
  · intro x hx hn
    subst hn
    have L := hv.line x hx
    refine ⟨if x.1.drv = .dahdi then dahdiRows v.span x.1.port else [], ?_, ?_, ?_, ?_⟩
    · simp only [showLine_some, find_of_mem hv.nodup hx, lineRows, List.cons_append, List.nil_append]
      congr 1
      · simp only [txt_append, name_eq, dec_eq, List.append_assoc, ToString.toString]
      · congr 1
        congr 1
        · cases hd : x.1.drv <;> simp [Drv.hasKeepalive, kaRows_eq, kapRows_eq]
        · cases x.1.pcap <;> rfl
    · intro h; rw [if_neg h]
    · intro h hp
      rw [if_pos h, dahdiRows, if_neg (by omega)]
      cases v.span x.1.port with
      | none => simp only [txt_append, dec_eq, ToString.toString]
      | some y => obtain ⟨a, b⟩ := y; simp only [txt_append, dec_eq, ToString.toString, List.append_assoc]
    · intro hp
      rw [dahdiRows, if_pos hp, ite_self]

/-- **C167**: `show e1_line` without a number prints what it prints for the lines one by one, in the order they were created -/
theorem C167_lines {v : View} (hv : ViewOk v) :
    showLine v none = ((v.lines.map (fun x => (showLine v (some x.1.num)).1)).flatten, true) := by
  have h : ∀ x ∈ v.lines, lineRows v.span x.1 = (showLine v (some x.1.num)).1 := by
    intro x hx
    rw [showLine_some, find_of_mem hv.nodup hx]
  rw [← List.map_congr_left h]
  rfl

/-- **C167**: `show e1_timeslot` of one time slot: nothing if it is not in use, otherwise this row; without such a line, an error -/
theorem C167_slot {v : View} (hv : ViewOk v) (n k : Nat) :
    (∀ x ∈ v.lines, x.1.num = n → ∀ t, x.2[k]? = some t →
      showTs v (some n) (some k) = (if t = .none then [] else [txt (tsText n k t)], true)) ∧
    ((∀ x ∈ v.lines, x.1.num ≠ n) → ∀ slot, showTs v (some n) slot = ([txt s!"E1 line {n} is invalid"], false)) := by
  refine ⟨?_, ?_⟩
  · intro x hx hn t ht
    subst hn
    rw [showTs_some, find_of_mem hv.nodup hx]
    simp only [ht]
    by_cases h : t = .none
    · rw [if_pos h, tsRows, if_pos h]
    · rw [if_neg h, tsRows_eq _ _ _ h]
  · intro h slot
    have hf : v.lines.find? (fun x => x.1.num == n) = none := by
      rw [List.find?_eq_none]
      intro x hx
      simpa using h x hx
    rw [showTs_some, hf]
    simp only [txt_append, dec_eq, ToString.toString, List.append_assoc]

theorem slotRows_range (n : Nat) : ∀ (ts : List TsType) (k : Nat),
    slotRows n k ts = ((List.range ts.length).map (fun i => match ts[i]? with | some t => tsRows n (k + i) t | none => [])).flatten := by
  intro ts
  induction ts with
  | nil => intro k; rfl
  | cons t ts ih =>
    intro k
    rw [slotRows, ih, List.length_cons, List.range_succ_eq_map, List.map_cons, List.flatten_cons, List.map_map]
    congr 2
    apply List.map_congr_left
    intro i _
    simp only [Function.comp_apply, List.getElem?_cons_succ, Nat.succ_eq_add_one]
    rw [show k + 1 + i = k + (i + 1) by omega]

/-- **C167**: `show e1_timeslot` of a line prints what it prints for its 32 time slots one by one -/
theorem C167_slots {v : View} (hv : ViewOk v) {x : Line × List TsType} (hx : x ∈ v.lines) :
    showTs v (some x.1.num) none = (((List.range 32).map (fun k => (showTs v (some x.1.num) (some k)).1)).flatten, true) := by
  rw [showTs_some, find_of_mem hv.nodup hx]
  simp only []
  rw [slotRows_range, hv.slots x hx]
  congr 2
  apply List.map_congr_left
  intro k hk
  have hk : k < x.2.length := by rw [hv.slots x hx]; exact List.mem_range.1 hk
  rw [showTs_some, find_of_mem hv.nodup hx]
  simp only [List.getElem?_eq_getElem hk, Nat.zero_add]

/-- **C167**: `show e1_timeslot` without arguments prints what it prints for the lines one by one, in the order they were created -/
theorem C167_slots_all {v : View} (hv : ViewOk v) (slot : Option Nat) :
    showTs v none slot = ((v.lines.map (fun x => (showTs v (some x.1.num) none).1)).flatten, true) := by
  have h : ∀ x ∈ v.lines, slotRows x.1.num 0 x.2 = (showTs v (some x.1.num) none).1 := by
    intro x hx
    rw [showTs_some, find_of_mem hv.nodup hx]
  rw [← List.map_congr_left h]
  rfl

theorem typeText_inj {s t : TsType} (h : txt (typeText s) = txt (typeText t)) : s = t := by
  revert h
  cases s <;> cases t <;> decide

/-- **C167**: from what is printed of a time slot, its type is known -/
theorem C167_slot_faithful {v w : View} (hv : ViewOk v) (hw : ViewOk w) {n k : Nat} {x y : Line × List TsType} (hx : x ∈ v.lines) (hy : y ∈ w.lines)
    (hxn : x.1.num = n) (hyn : y.1.num = n) {s t : TsType} (hs : x.2[k]? = some s) (ht : y.2[k]? = some t)
    (h : showTs v (some n) (some k) = showTs w (some n) (some k)) : s = t := by
  rw [(C167_slot hv n k).1 x hx hxn s hs, (C167_slot hw n k).1 y hy hyn t ht] at h
  have h := (Prod.mk.inj h).1
  by_cases h1 : s = .none
  · by_cases h2 : t = .none
    · rw [h1, h2]
    · rw [if_pos h1, if_neg h2] at h; simp at h
  · by_cases h2 : t = .none
    · rw [if_neg h1, if_pos h2] at h; simp at h
    · rw [if_neg h1, if_neg h2] at h
      have h := (List.cons.inj h).1
      simp only [tsText, txt_append] at h
      exact typeText_inj (List.append_cancel_left h)

/-! ### What is printed of lines tells them apart -/

theorem decI_nonneg {i : Int} (h : 0 ≤ i) : decI i = dec i.toNat := by
  obtain ⟨n, rfl⟩ := Int.eq_ofNat_of_zero_le h
  rw [decI, if_neg (by omega)]
  rfl

theorem kaVal_inj {i j : Int} (hi : i = -1 ∨ 0 ≤ i) (hj : j = -1 ∨ 0 ≤ j) {u : Text} (h : kaVal i u = kaVal j u) : i = j := by
  have key : ∀ (n : Nat) (u : Text), dec n ++ u ≠ txt "(driver's default)" := by
    intro n u h
    have := dec_dig n
    cases hd : dec n with
    | nil => exact dec_ne_nil n hd
    | cons a l =>
      rw [hd] at h this
      rw [List.cons_append] at h
      have ha := this a (by simp)
      have : a = 40 := (List.cons.inj (h.trans (show txt "(driver's default)" = 40 :: (txt "(driver's default)").tail by decide))).1
      subst this
      exact absurd ha.1 (by decide)
  unfold kaVal at h
  by_cases h1 : i = -1
  · by_cases h2 : j = -1
    · rw [h1, h2]
    · rw [if_neg (by simp [h1]), if_pos h2, decI_nonneg (by omega)] at h
      exact absurd h.symm (key _ _)
  · by_cases h2 : j = -1
    · rw [if_pos h1, if_neg (by simp [h2]), decI_nonneg (by omega)] at h
      exact absurd h (key _ _)
    · rw [if_pos h1, if_pos h2, decI_nonneg (by omega), decI_nonneg (by omega)] at h
      have := dec_inj (List.append_cancel_right h)
      omega

theorem kaRows_inj {a b : Line} (ha : KaOk a) (hb : KaOk b) {s t : List Text} (h : kaRows a ++ s = kaRows b ++ t) :
    (a.idle = b.idle ∧ a.probes = b.probes ∧ a.interval = b.interval) ∧ s = t := by
  obtain ⟨a1, a2, a3⟩ := kaOk_range ha
  obtain ⟨b1, b2, b3⟩ := kaOk_range hb
  unfold kaRows at h
  by_cases h1 : a.probes = 0
  · by_cases h2 : b.probes = 0
    · rw [if_pos h1, if_pos h2] at h
      refine ⟨?_, (List.cons.inj h).2⟩
      rcases ha with ha | ha | ha <;> rcases hb with hb | hb | hb <;> omega
    · rw [if_pos h1, if_neg h2] at h
      exact absurd (List.cons.inj h).1 (by decide)
  · by_cases h2 : b.probes = 0
    · rw [if_neg h1, if_pos h2] at h
      exact absurd (List.cons.inj h).1 (by decide)
    · rw [if_neg h1, if_neg h2] at h
      simp only [List.cons_append, List.nil_append] at h
      obtain ⟨_, h⟩ := List.cons.inj h
      obtain ⟨e1, h⟩ := List.cons.inj h
      obtain ⟨e2, h⟩ := List.cons.inj h
      obtain ⟨e3, h⟩ := List.cons.inj h
      exact ⟨⟨kaVal_inj a1 b1 (List.append_cancel_left e2), kaVal_inj a2 b2 (List.append_cancel_left e1), kaVal_inj a3 b3 (List.append_cancel_left e3)⟩, h⟩

theorem kapRows_inj {a b : Option (Nat × Nat)} {s t : List Text} (h : kapRows a ++ s = kapRows b ++ t) : a = b ∧ s = t := by
  cases a with
  | none =>
    cases b with
    | none => exact ⟨rfl, (List.cons.inj h).2⟩
    | some y => exact absurd (List.cons.inj h).1 (by decide)
  | some x =>
    cases b with
    | none => exact absurd (List.cons.inj h).1 (by decide)
    | some y =>
      obtain ⟨x1, x2⟩ := x
      obtain ⟨y1, y2⟩ := y
      simp only [kapRows, List.cons_append, List.nil_append] at h
      obtain ⟨_, h⟩ := List.cons.inj h
      obtain ⟨e1, h⟩ := List.cons.inj h
      obtain ⟨e2, h⟩ := List.cons.inj h
      rw [List.append_assoc, List.append_assoc] at e1 e2
      have h1 := dec_inj (List.append_cancel_right (List.append_cancel_left e1))
      have h2 := dec_inj (List.append_cancel_right (List.append_cancel_left e2))
      exact ⟨by rw [h1, h2], h⟩

theorem dahdiRows_head (span : Nat → Option (Nat × Nat)) (p : Nat) {r : Text} {rs : List Text} (h : dahdiRows span p = r :: rs) : r.head? = some 68 := by
  unfold dahdiRows at h
  split at h
  · simp at h
  · split at h <;> (have := (List.cons.inj h).1; subst this; rfl)

theorem pcapRows_inj {a b : Option Text} {s t : List Text} (hs : ∀ r rs, s = r :: rs → r.head? = some 68) (ht : ∀ r rs, t = r :: rs → r.head? = some 68)
    (h : pcapRows a ++ s = pcapRows b ++ t) : a = b := by
  cases a with
  | none =>
    cases b with
    | none => rfl
    | some y => exact absurd (hs _ _ h) (by simp [txt])
  | some x =>
    cases b with
    | none => exact absurd (ht _ _ h.symm) (by simp [txt])
    | some y => rw [List.append_cancel_left (List.cons.inj h).1]

theorem drv_inj {a b : Text} {d e : Drv} (h : a ++ (txt ", Driver " ++ d.name) = b ++ (txt ", Driver " ++ e.name)) : d = e ∧ a = b := by
  have key : d = e := by
    have h2 := congrArg (fun l => l.reverse.take 2) h
    revert h2
    cases d <;> cases e <;> simp [txt, Drv.name]
  subst key
  exact ⟨rfl, List.append_cancel_right h⟩

/-- **C167**: from what is printed of a line, its number, driver, name, pcap file and keepalive are known -/
theorem C167_line_faithful {v w : View} (hv : ViewOk v) (hw : ViewOk w) {m n : Nat} {x y : Line × List TsType} (hx : x ∈ v.lines) (hy : y ∈ w.lines)
    (hxm : x.1.num = m) (hyn : y.1.num = n) (h : (showLine v (some m)).1 = (showLine w (some n)).1) : Alike x.1 y.1 := by
  subst hxm hyn
  rw [showLine_some, find_of_mem hv.nodup hx, showLine_some, find_of_mem hw.nodup hy] at h
  simp only [lineRows, List.cons_append, List.nil_append, List.append_assoc] at h
  obtain ⟨h0, h⟩ := List.cons.inj h
  have h0 := List.append_cancel_left h0
  obtain ⟨hnum, h0⟩ := dig_split (s := (txt ", Name ").tail ++ (x.1.name.getD [] ++ (txt ", Driver " ++ x.1.drv.name)))
    (t := (txt ", Name ").tail ++ (y.1.name.getD [] ++ (txt ", Driver " ++ y.1.drv.name))) (c := 44) (d := 44)
    (dec_dig x.1.num) (dec_dig y.1.num) (by unfold IsDig; decide) (by unfold IsDig; decide) h0
  have h0 := List.append_cancel_left (List.cons.inj h0).2
  obtain ⟨hd, hname⟩ := drv_inj h0
  have H : (∀ r rs, (if x.1.drv = .dahdi then dahdiRows v.span x.1.port else []) = r :: rs → r.head? = some 68) ∧
      (∀ r rs, (if y.1.drv = .dahdi then dahdiRows w.span y.1.port else []) = r :: rs → r.head? = some 68) := by
    constructor
    · intro r rs e
      split at e
      · exact dahdiRows_head _ _ e
      · simp at e
    · intro r rs e
      split at e
      · exact dahdiRows_head _ _ e
      · simp at e
  by_cases hi : x.1.drv = .ipa
  · have hj : y.1.drv = .ipa := hd ▸ hi
    rw [hi, hj] at h
    rw [hi, hj] at H
    simp only [Drv.hasKeepalive, if_true] at h
    obtain ⟨h1, h⟩ := kaRows_inj (hv.line x hx).ka (hw.line y hy).ka h
    obtain ⟨h2, h⟩ := kapRows_inj h
    exact ⟨dec_inj hnum, hd, hname, pcapRows_inj H.1 H.2 h, fun _ => ⟨h1.1, h1.2.1, h1.2.2, h2⟩⟩
  · have hj : ¬ y.1.drv = .ipa := hd ▸ hi
    have k1 : x.1.drv.hasKeepalive = false := by revert hi; cases x.1.drv <;> simp [Drv.hasKeepalive]
    have k2 : y.1.drv.hasKeepalive = false := by rw [← hd]; exact k1
    rw [k1, k2, if_neg hi, if_neg hj] at h
    simp only [Bool.false_eq_true, if_false, List.nil_append] at h
    exact ⟨dec_inj hnum, hd, hname, pcapRows_inj H.1 H.2 h, fun e => absurd e hi⟩

/-- the names of `show e1_line` for a view with a line of the IPA driver and one of DAHDI -/
def view : View :=
  ⟨[(⟨7, .ipa, 0, some [65], none, 3, 30, 5, 10, some (20, 5), none, false⟩, List.replicate 32 .none),
    (⟨12, .dahdi, 1, none, none, 0, -1, -1, -1, none, some [47, 97], true⟩, .none :: .sign :: List.replicate 29 .none ++ [.trau])],
   fun i => if i = 1 then some (32, 31) else none⟩

theorem view_ok : ViewOk view := by
  refine ⟨by decide, ?_, by decide⟩
  intro x hx
  simp only [view, List.mem_cons, List.not_mem_nil, or_false] at hx
  rcases hx with rfl | rfl
  · exact ⟨by decide, by decide, by decide, .inr (.inr (by decide)), by decide, by rintro i w ⟨⟩; decide, by decide, by rintro s ⟨⟩⟩
  · exact ⟨by decide, by decide, by decide, .inl (by decide), by decide, by rintro i w ⟨⟩, by decide, by rintro s ⟨⟩⟩

example : showLine view none = (["E1 Line Number 7, Name A, Driver ipa", "Keepalive: enabled", "  Number of probes: 5", "  Idle timeout: 30s",
    "  Probe interval: 10s", "IPA Keepalive: enabled", "  Interval: 20s", "  Timeout: 5s", "E1 Line Number 12, Name , Driver dahdi", "PCAP /a",
    "DAHDI Span #2, Base Nr 32, Timeslots: 31"].map txt, true) ∧
    showTs view none none = (["E1 Timeslot  1 of Line 12 is Type Signalling", "E1 Timeslot 31 of Line 12 is Type TRAU"].map txt, true) ∧
    (showTs view (some 3) none).2 = false ∧ showTs view (some 7) (some 4) = ([], true) := by decide +kernel

end Verif.Vty
