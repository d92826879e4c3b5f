import Verif.Props.Pcap
/-!
# C93: what remains of the property of failed writes
-/
set_option maxRecDepth 10000
namespace Verif.Pcap
open Spec.Pcap

theorem writes_append (fd : Int) : ∀ (as bs : List Call) (file : List Byte),
    writes fd file (as ++ bs) = ((writes fd (writes fd file as).1 bs).1, (writes fd file as).2 ++ (writes fd (writes fd file as).1 bs).2) := by
  intro as
  induction as with
  | nil => intro bs file; rfl
  | cons c as ih =>
    intro bs file
    simp only [List.cons_append, writes, ih]

/-- nothing is ever removed from the file -/
theorem writes_prefix {fd : Int} (hfd : 0 ≤ fd) : ∀ (cs : List Call) (file : List Byte), ∃ rest, (writes fd file cs).1 = file ++ rest := by
  intro cs
  induction cs with
  | nil => intro file; exact ⟨[], (List.append_nil _).symm⟩
  | cons c cs ih =>
    intro file
    obtain ⟨n, rc, -, e, -⟩ := C61_short fd hfd file c.sec c.usec c.output c.data c.wr
    obtain ⟨rest, r⟩ := ih (write fd file c.sec c.usec c.output c.data c.wr).1
    refine ⟨(record c.sec c.usec c.output c.data).take n ++ rest, ?_⟩
    simp only [writes]
    rw [r, e, List.append_assoc]

theorem header_ok (r : List Byte) : parse (header ++ r) = packets r := by
  have hf : fileOk (header ++ r) = true := by
    unfold fileOk
    have hl : (24 : Nat) ≤ (header ++ r).length := by
      rw [List.length_append]
      have : header.length = 24 := rfl
      omega
    rw [decide_eq_true hl]
    rfl
  unfold parse
  rw [if_pos hf]
  rfl

theorem open_ok {fd : Int} (hfd : 0 ≤ fd) : (openFile fd (some 24)).1 = header := by
  have h1 : setFd [] (some 24) = (header, 0, 0) := by decide +kernel
  unfold openFile
  rw [if_neg (by omega), h1]
  rfl

/-- what a reader shall find for a list of calls -/
def Frames (ps : List Packet) (cs : List Call) : Prop :=
  ps.map (fun p => (p.sec, p.usec, lapd p)) = cs.map (fun c => (c.sec % 2 ^ 32, c.usec % 2 ^ 32, some (c.output, c.data)))

theorem frames_records (cs : List Call) : Frames (cs.map fun c => packetOf c.sec c.usec c.output c.data) cs := by
  unfold Frames
  rw [List.map_map]
  apply List.map_congr_left
  intro c _
  simp only [Function.comp_apply, (C61_record c.sec c.usec c.output c.data).2.2]
  rfl

/-- **C93**, frames recorded before: whatever happens to the writes after the first ones, the file begins with a file from which exactly the frames of
these can be read -/
theorem C93_before_partial (fd : Int) (hfd : 0 ≤ fd) (cs ds : List Call) (h : ∀ c ∈ cs, Complete c) :
    ∃ f rest ps, (writes fd (openFile fd (some 24)).1 (cs ++ ds)).1 = f ++ rest ∧ parse f = some ps ∧ Frames ps cs := by
  rw [writes_append, open_ok hfd, writes_complete hfd cs header h]
  obtain ⟨rest, r⟩ := writes_prefix hfd ds (header ++ cs.flatMap fun c => record c.sec c.usec c.output c.data)
  refine ⟨_, rest, _, r, ?_, frames_records cs⟩
  rw [header_ok]
  exact packets_records cs (fun c hc => by have := (h c hc).2; omega)

/-- `write()` accepts all octets -/
def Call.done (c : Call) : Bool := c.wr == some (c.data.length + 32)

/-- `write()` accepts all octets or none -/
def Whole (c : Call) : Prop := (c.wr = none ∨ c.wr = some 0 ∨ c.wr = some (c.data.length + 32)) ∧ c.data.length < 2 ^ 16

theorem write_none {fd : Int} (hfd : 0 ≤ fd) (file : List Byte) {c : Call} (h : c.wr = none ∨ c.wr = some 0) :
    write fd file c.sec c.usec c.output c.data c.wr = (file, -1) := by
  have hl := record_len c.sec c.usec c.output c.data
  unfold write
  rw [if_neg (by omega)]
  rcases h with h | h <;> rw [h]
  · rw [if_pos (by simp only [writeRc]; omega)]; rfl
  · rw [if_pos (by simp only [writeRc, hl, Nat.zero_min]; omega)]
    simp [written]

theorem writes_whole {fd : Int} (hfd : 0 ≤ fd) : ∀ (cs : List Call) (file : List Byte), (∀ c ∈ cs, Whole c) →
    writes fd file cs = (file ++ (cs.filter Call.done).flatMap (fun c => record c.sec c.usec c.output c.data),
      cs.map fun c => if c.done then ((c.data.length + 32 : Nat) : Int) else -1) := by
  intro cs
  induction cs with
  | nil => intro file _; simp [writes]
  | cons c cs ih =>
    intro file h
    have hw := h c List.mem_cons_self
    have hs : ∀ x ∈ cs, Whole x := fun x hx => h x (List.mem_cons_of_mem _ hx)
    by_cases hd : c.wr = some (c.data.length + 32)
    · have hb : c.done = true := by unfold Call.done; rw [hd]; exact beq_self_eq_true _
      rw [writes, write_complete hfd file ⟨hd, hw.2⟩]
      simp only [ih _ hs, List.filter_cons_of_pos hb, List.flatMap_cons, List.map_cons, hb, if_true, List.append_assoc]
    · have hb : ¬ c.done = true := by unfold Call.done; simpa using hd
      have hn : c.wr = none ∨ c.wr = some 0 := by
        rcases hw.1 with h | h | h
        · exact .inl h
        · exact .inr h
        · exact absurd h hd
      rw [writes, write_none hfd file hn]
      simp only [ih _ hs, List.filter_cons_of_neg hb, List.map_cons, if_neg hb]

/-- **C93**, frames recorded afterwards: if every failing write leaves nothing behind (an error, or none of the octets accepted), the frames recorded
with success, before and after, are exactly those a reader finds, in order; the others are reported with -1 -/
theorem C93_whole_partial (fd : Int) (hfd : 0 ≤ fd) (cs : List Call) (h : ∀ c ∈ cs, Whole c) :
    (∃ ps, parse (writes fd (openFile fd (some 24)).1 cs).1 = some ps ∧ Frames ps (cs.filter Call.done)) ∧
    (writes fd (openFile fd (some 24)).1 cs).2 = cs.map fun c => if c.wr = some (c.data.length + 32) then ((c.data.length + 32 : Nat) : Int) else -1 := by
  rw [open_ok hfd, writes_whole hfd cs header h]
  refine ⟨⟨_, ?_, frames_records _⟩, ?_⟩
  · rw [header_ok]
    exact packets_records _ (fun c hc => by have := (h c (List.mem_filter.1 hc).1).2; omega)
  · apply List.map_congr_left
    intro c _
    by_cases hd : c.wr = some (c.data.length + 32)
    · rw [if_pos hd, if_pos (by unfold Call.done; rw [hd]; exact beq_self_eq_true _)]
    · rw [if_neg hd, if_neg (by unfold Call.done; simpa using hd)]

/-- a failure between two frames -/
example : ∃ cs : List Call, (∀ c ∈ cs, Whole c) ∧ (cs.filter Call.done).map (fun c => c.data) = [[1, 2, 3], [9]] ∧ cs.length = 3 := by
  refine ⟨[⟨1, 2, true, [1, 2, 3], some 35⟩, ⟨2, 0, true, [4], none⟩, ⟨3, 4, false, [9], some 33⟩], ?_, by decide, rfl⟩
  intro c hc
  simp only [List.mem_cons, List.not_mem_nil, or_false] at hc
  rcases hc with rfl | rfl | rfl
  · exact ⟨.inr (.inr rfl), by decide⟩
  · exact ⟨.inl rfl, by decide⟩
  · exact ⟨.inr (.inr rfl), by decide⟩
/-- a complete frame, then a short write -/
example : Complete ⟨1, 2, true, [1, 2, 3], some 35⟩ := ⟨rfl, by decide⟩

end Verif.Pcap
