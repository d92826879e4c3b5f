import Verif.Pcap
import Verif.Spec.Pcap
/-!
# C61: pcap files
-/
set_option maxRecDepth 10000
namespace Verif.Pcap
open Spec.Pcap

theorem le32_len (n : Nat) : (le32 n).length = 4 := rfl

theorem leNum_le32 {n : Nat} (h : n < 2 ^ 32) : leNum (le32 n) = n := by
  simp only [le32, leNum, BitVec.toNat_ofNat]
  omega

theorem record_len (sec usec : Nat) (o : Bool) (d : List Byte) : (record sec usec o d).length = d.length + 32 := by
  simp only [record, List.length_append, le32_len]
  have : (lapdHdr o).length = 16 := rfl
  omega

/-- what a reader finds in the record of one frame -/
def packetOf (sec usec : Nat) (output : Bool) (data : List Byte) : Packet :=
  { sec := sec % 2 ^ 32, usec := usec % 2 ^ 32, origLen := data.length + 16, data := lapdHdr output ++ data }

/-- reading one well-formed record in front of others -/
theorem packets_cons (s u n o : Nat) (d rest : List Byte) (hs : s < 2 ^ 32) (hu : u < 2 ^ 32) (hn : n < 2 ^ 32) (ho : o < 2 ^ 32)
    (hd : d.length = n) :
    packets (le32 s ++ le32 u ++ le32 n ++ le32 o ++ d ++ rest) =
      (packets rest).map fun r => { sec := s, usec := u, origLen := o, data := d } :: r := by
  have e : le32 s ++ le32 u ++ le32 n ++ le32 o ++ d ++ rest = le32 s ++ (le32 u ++ (le32 n ++ (le32 o ++ (d ++ rest)))) := by
    simp only [List.append_assoc]
  rw [e]
  have t0 : (le32 s ++ (le32 u ++ (le32 n ++ (le32 o ++ (d ++ rest))))).take 4 = le32 s := rfl
  have t1 : ((le32 s ++ (le32 u ++ (le32 n ++ (le32 o ++ (d ++ rest))))).drop 4).take 4 = le32 u := rfl
  have t2 : ((le32 s ++ (le32 u ++ (le32 n ++ (le32 o ++ (d ++ rest))))).drop 8).take 4 = le32 n := rfl
  have t3 : ((le32 s ++ (le32 u ++ (le32 n ++ (le32 o ++ (d ++ rest))))).drop 12).take 4 = le32 o := rfl
  have t4 : (le32 s ++ (le32 u ++ (le32 n ++ (le32 o ++ (d ++ rest))))).drop 16 = d ++ rest := rfl
  have hlen : (le32 s ++ (le32 u ++ (le32 n ++ (le32 o ++ (d ++ rest))))).length = 16 + n + rest.length := by
    simp only [List.length_append, le32_len]; omega
  have t5 : (le32 s ++ (le32 u ++ (le32 n ++ (le32 o ++ (d ++ rest))))).drop (16 + n) = rest := by
    rw [← List.drop_drop, t4, ← hd, List.drop_left]
  rw [packets, if_neg (by intro h; rw [h] at hlen; simp at hlen; omega), if_neg (by omega)]
  simp only [t0, t1, t2, t3, t4, leNum_le32 hs, leNum_le32 hu, leNum_le32 hn, leNum_le32 ho]
  rw [if_neg (by omega), t5]
  have : (d ++ rest).take n = d := by rw [← hd, List.take_left]
  rw [this]
  cases packets rest <;> rfl

theorem packets_record (sec usec : Nat) (o : Bool) (d rest : List Byte) (hd : d.length + 16 < 2 ^ 32) :
    packets (record sec usec o d ++ rest) = (packets rest).map fun r => packetOf sec usec o d :: r := by
  unfold record
  rw [Nat.mod_eq_of_lt hd, List.append_assoc (_ ++ _) (lapdHdr o) d]
  exact packets_cons _ _ _ _ (lapdHdr o ++ d) rest (Nat.mod_lt _ (by decide)) (Nat.mod_lt _ (by decide)) hd hd (by
    rw [List.length_append]; have : (lapdHdr o).length = 16 := rfl; omega)

/-- C61: the record says how long the frame is, in which direction it went, and contains it -/
theorem C61_record (sec usec : Nat) (o : Bool) (d : List Byte) :
    (packetOf sec usec o d).origLen = d.length + 16 ∧ (packetOf sec usec o d).data.length = d.length + 16 ∧
    lapd (packetOf sec usec o d) = some (o, d) := by
  have hl : (lapdHdr o).length = 16 := rfl
  refine ⟨rfl, by simp only [packetOf, List.length_append, hl]; omega, ?_⟩
  have h1 : ¬ ((lapdHdr o ++ d).length < 16 ∨ beNum (((lapdHdr o ++ d).drop 14).take 2) ≠ 48) := by
    rw [List.length_append, hl]
    rintro (h | h)
    · omega
    · exact h rfl
  unfold lapd
  show (if ((lapdHdr o ++ d).length < 16 ∨ beNum (((lapdHdr o ++ d).drop 14).take 2) ≠ 48) then _ else _) = _
  rw [if_neg h1]
  cases o <;> rfl

/-- the writes of the calls succeed (`write()` accepts all octets); `msg->len` is a 16 bit number -/
def Complete (c : Call) : Prop := c.wr = some (c.data.length + 32) ∧ c.data.length < 2 ^ 16

theorem write_complete {fd : Int} (hfd : 0 ≤ fd) (file : List Byte) {c : Call} (h : Complete c) :
    write fd file c.sec c.usec c.output c.data c.wr =
      (file ++ record c.sec c.usec c.output c.data, ((c.data.length + 32 : Nat) : Int)) := by
  have hl := record_len c.sec c.usec c.output c.data
  unfold write
  rw [if_neg (by omega), h.1]
  simp only [writeRc, written, hl, Nat.min_self]
  rw [if_neg (by simp), List.take_of_length_le (by omega)]

theorem writes_complete {fd : Int} (hfd : 0 ≤ fd) : ∀ (cs : List Call) (file : List Byte), (∀ c ∈ cs, Complete c) →
    writes fd file cs = (file ++ cs.flatMap (fun c => record c.sec c.usec c.output c.data),
      cs.map fun c => ((c.data.length + 32 : Nat) : Int)) := by
  intro cs
  induction cs with
  | nil => intro file _; simp [writes]
  | cons c cs ih =>
    intro file h
    rw [writes, write_complete hfd file (h c List.mem_cons_self)]
    simp only [ih _ (fun x hx => h x (List.mem_cons_of_mem _ hx)),
      List.flatMap_cons, List.map_cons, List.append_assoc]

theorem packets_records : ∀ (cs : List Call), (∀ c ∈ cs, c.data.length + 16 < 2 ^ 32) →
    packets (cs.flatMap fun c => record c.sec c.usec c.output c.data) =
      some (cs.map fun c => packetOf c.sec c.usec c.output c.data) := by
  intro cs
  induction cs with
  | nil => intro _; rw [List.flatMap_nil, packets]; rfl
  | cons c cs ih =>
    intro h
    rw [List.flatMap_cons, packets_record _ _ _ _ _ (h c List.mem_cons_self), ih (fun x hx => h x (List.mem_cons_of_mem _ hx))]
    rfl

/-- C61: after `osmo_pcap_lapd_open` and any number of `osmo_pcap_lapd_write`s (all `write()`s complete), the
file is a pcap file from which a reader gets back exactly the frames written, in order, with their
directions and times; each call returns the number of octets it appended. -/
theorem C61_file (fd : Int) (hfd : 0 ≤ fd) (cs : List Call) (h : ∀ c ∈ cs, Complete c) :
    (openFile fd (some 24)).2.1 = fd ∧
    ∃ ps, parse (writes fd (openFile fd (some 24)).1 cs).1 = some ps ∧
      ps.map (fun p => (p.sec, p.usec, lapd p)) =
        cs.map (fun c => (c.sec % 2 ^ 32, c.usec % 2 ^ 32, some (c.output, c.data))) ∧
      ps.map (fun p => (p.origLen, p.data.length)) = cs.map (fun c => (c.data.length + 16, c.data.length + 16)) ∧
      (writes fd (openFile fd (some 24)).1 cs).2 = cs.map fun c => ((c.data.length + 32 : Nat) : Int) := by
  have ho : openFile fd (some 24) = (header, fd, 0) := by
    have h1 : setFd [] (some 24) = (header, 0, 0) := by decide +kernel
    unfold openFile
    rw [if_neg (by omega), h1]
    rfl
  rw [ho]
  refine ⟨rfl, cs.map (fun c => packetOf c.sec c.usec c.output c.data), ?_, ?_, ?_, ?_⟩
  · rw [writes_complete hfd cs header h]
    have hf : fileOk (header ++ cs.flatMap fun c => record c.sec c.usec c.output c.data) = true := by
      unfold fileOk
      have hl : (24 : Nat) ≤ (header ++ cs.flatMap fun c => record c.sec c.usec c.output c.data).length := by
        rw [List.length_append]
        have : header.length = 24 := rfl
        omega
      rw [decide_eq_true hl]
      rfl
    unfold parse
    rw [if_pos hf]
    exact packets_records cs (fun c hc => by have := (h c hc).2; omega)
  · rw [List.map_map]
    apply List.map_congr_left
    intro c hc
    simp only [Function.comp_apply, (C61_record c.sec c.usec c.output c.data).2.2]
    rfl
  · rw [List.map_map]
    apply List.map_congr_left
    intro c hc
    simp only [Function.comp_apply, (C61_record c.sec c.usec c.output c.data).1, (C61_record c.sec c.usec c.output c.data).2.1]
  · rw [writes_complete hfd cs header h]

/-- two frames -/
example : (∀ c ∈ [(⟨1, 2, true, [1, 2, 3], some 35⟩ : Call), ⟨3, 4, false, [], some 32⟩], Complete c) := by
  intro c hc
  simp only [List.mem_cons, List.not_mem_nil, or_false] at hc
  rcases hc with rfl | rfl <;> exact ⟨rfl, by decide⟩

/-- without a file nothing is written and 0 is returned -/
theorem C61_no_file (fd : Int) (hfd : fd < 0) (file : List Byte) (sec usec : Nat) (o : Bool) (d : List Byte) (wr : Option Nat) :
    write fd file sec usec o d wr = (file, 0) := by
  unfold write
  rw [if_pos hfd]

/-- whatever `write()` does: -1 is returned exactly if not all octets were accepted, and the file only grows by a
part of the record -/
theorem C61_short (fd : Int) (hfd : 0 ≤ fd) (file : List Byte) (sec usec : Nat) (o : Bool) (d : List Byte) (wr : Option Nat) :
    ∃ (n : Nat) (rc : Int), n ≤ d.length + 32 ∧
      write fd file sec usec o d wr = (file ++ (record sec usec o d).take n, rc) ∧
      (rc = -1 ∧ n < d.length + 32 ∨ rc = ((d.length + 32 : Nat) : Int) ∧ n = d.length + 32) := by
  have hl := record_len sec usec o d
  unfold write
  rw [if_neg (by omega)]
  cases wr with
  | none =>
    refine ⟨0, -1, by omega, ?_, .inl ⟨rfl, by omega⟩⟩
    have : writeRc (record sec usec o d) none ≠ (record sec usec o d).length := by
      simp only [writeRc]; omega
    rw [if_pos this]
    simp [written]
  | some n =>
    by_cases hn : n < d.length + 32
    · refine ⟨n, -1, by omega, ?_, .inl ⟨rfl, hn⟩⟩
      have : writeRc (record sec usec o d) (some n) ≠ (record sec usec o d).length := by
        simp only [writeRc, hl]; omega
      rw [if_pos this]
      rfl
    · refine ⟨d.length + 32, _, Nat.le_refl _, ?_, .inr ⟨rfl, rfl⟩⟩
      have : writeRc (record sec usec o d) (some n) = (record sec usec o d).length := by
        simp only [writeRc, hl]; omega
      rw [if_neg (fun h => h this), hl]
      simp only [written]
      rw [List.take_of_length_le (by omega), List.take_of_length_le (by omega)]

/-- after a short `write()` (reported as -1) the fragment stays in the file and later records are appended to it:
the frames written afterwards, with success, cannot be read any more -/
theorem short_write_violated : ∃ c1 c2 : Call, Complete c2 ∧
    (writes 3 (openFile 3 (some 24)).1 [c1, c2]).2 = [-1, 33] ∧
    parse (writes 3 (openFile 3 (some 24)).1 [c1, c2]).1 = none := by
  refine ⟨⟨0, 0, true, [1, 2, 3, 4], some 24⟩, ⟨0, 0, true, [9], some 33⟩, ⟨rfl, by decide⟩, by decide +kernel, ?_⟩
  have h1 : fileOk (writes 3 (openFile 3 (some 24)).1 [⟨0, 0, true, [1, 2, 3, 4], some 24⟩, ⟨0, 0, true, [9], some 33⟩]).1 = true := by
    decide +kernel
  unfold parse
  rw [if_pos h1]
  generalize hb : ((writes 3 (openFile 3 (some 24)).1 [⟨0, 0, true, [1, 2, 3, 4], some 24⟩, ⟨0, 0, true, [9], some 33⟩]).1.drop 24) = b
  have e : b = (le32 0 ++ le32 0 ++ le32 20 ++ le32 20 ++ (b.drop 16).take 20) ++ b.drop 36 := by rw [← hb]; decide +kernel
  rw [e, packets_cons 0 0 20 20 _ _ (by decide) (by decide) (by decide) (by decide) (by rw [← hb]; decide +kernel)]
  have h3 : packets (b.drop 36) = none := by
    rw [packets, if_neg (by rw [← hb]; decide +kernel)]
    by_cases h : (b.drop 36).length < 16
    · rw [if_pos h]
    · rw [if_neg h]
      have : (b.drop 36).length < 16 + leNum (((b.drop 36).drop 8).take 4) := by rw [← hb]; decide +kernel
      simp only [this, if_true]
  rw [h3]
  rfl

/-- if the file header cannot be written, the descriptor is closed twice -/
theorem open_double_close_violated (fd : Int) (hfd : 0 ≤ fd) (wr : Option Nat) (h : ∀ n, wr = some n → n < 24) :
    (openFile fd wr).2 = (-1, 2) := by
  have hne : writeRc header wr ≠ header.length := by
    have hl : header.length = 24 := rfl
    cases wr with
    | none => simp only [writeRc, hl]; decide
    | some n => have := h n rfl; simp only [writeRc, hl]; omega
  unfold openFile setFd
  rw [if_neg (by omega), if_pos hne]
  rfl

/-! ## records written by `src/e1_input.c` -/

/-- what a reader finds in the record of one message, see `E1.pcapRecord` -/
def signPacket (sec : Nat) (out : Bool) (sapi tei : Byte) (data : List Byte) : Packet :=
  { sec := sec, usec := 0, origLen := data.length + 19,
    data := [(4 : Byte), 0, 0, 0, 0, 0, if out then 0 else 1, 0, 0, 0, 0, 0, 0, 0, 0, 48] ++
      [(sapi &&& 0x3f) <<< 2 ||| (if out then 2 else 0), (tei &&& 0x7f) <<< 1 ||| 1, 3] ++ data }

/-- the records of `write_pcap_packet` can be split again: any number of them, behind the same file header, gives
the packets with the messages, in order -/
theorem C61_sign_file (ms : List (Nat × Bool × Byte × Byte × List Byte))
    (h : ∀ m ∈ ms, m.1 < 2 ^ 32 ∧ m.2.2.2.2.length + 19 < 2 ^ 32) :
    parse (header ++ ms.flatMap fun m => E1.pcapRecord m.1 m.2.1 m.2.2.1 m.2.2.2.1 m.2.2.2.2) =
      some (ms.map fun m => signPacket m.1 m.2.1 m.2.2.1 m.2.2.2.1 m.2.2.2.2) := by
  have hf : ∀ l, fileOk (header ++ l) = true := by
    intro l
    unfold fileOk
    have hl : (24 : Nat) ≤ (header ++ l).length := by
      rw [List.length_append]
      have : header.length = 24 := rfl
      omega
    rw [decide_eq_true hl]
    rfl
  unfold parse
  rw [if_pos (hf _)]
  have : ∀ l, (header ++ l).drop 24 = l := fun l => rfl
  rw [this]
  induction ms with
  | nil => rw [List.flatMap_nil, packets]; rfl
  | cons m ms ih =>
    obtain ⟨sec, out, sapi, tei, d⟩ := m
    obtain ⟨h1, h2⟩ := h _ List.mem_cons_self
    simp only at h1 h2
    rw [List.flatMap_cons, List.map_cons]
    have e : ∀ rest, E1.pcapRecord sec out sapi tei d ++ rest =
        le32 sec ++ le32 0 ++ le32 (d.length + 19) ++ le32 (d.length + 19) ++ (signPacket sec out sapi tei d).data ++ rest := by
      intro rest
      unfold E1.pcapRecord signPacket E1.le32 le32
      simp only [List.append_assoc]
    rw [e, packets_cons sec 0 (d.length + 19) (d.length + 19) _ _ h1 (by decide) h2 h2 (by
        simp only [signPacket, List.length_append, List.length_cons, List.length_nil]; omega),
      ih (fun x hx => h x (List.mem_cons_of_mem _ hx))]
    rfl

/-- the LAPD frame header in such a record has the SAPI (6 bits), the TEI (7 bits) and the command bit of the
direction -/
theorem C61_sign_header (sec : Nat) (out : Bool) (sapi tei : Byte) (d : List Byte) :
    ∃ a t, (signPacket sec out sapi tei d).data.drop 16 = a :: t :: 3 :: d ∧
      a.toNat / 4 = sapi.toNat % 64 ∧ a.toNat / 2 % 2 = (if out then 1 else 0) ∧ a.toNat % 2 = 0 ∧
      t.toNat / 2 = tei.toNat % 128 ∧ t.toNat % 2 = 1 := by
  have key : ∀ (out : Bool) (sapi tei : Byte),
      ((sapi &&& 0x3f) <<< 2 ||| (if out then (2 : Byte) else 0)).toNat / 4 = sapi.toNat % 64 ∧
      ((sapi &&& 0x3f) <<< 2 ||| (if out then (2 : Byte) else 0)).toNat / 2 % 2 = (if out then 1 else 0) ∧
      ((sapi &&& 0x3f) <<< 2 ||| (if out then (2 : Byte) else 0)).toNat % 2 = 0 := by decide +kernel
  have key2 : ∀ (tei : Byte), ((tei &&& 0x7f) <<< 1 ||| 1).toNat / 2 = tei.toNat % 128 ∧ ((tei &&& 0x7f) <<< 1 ||| 1).toNat % 2 = 1 := by
    decide +kernel
  refine ⟨_, _, rfl, (key out sapi tei).1, (key out sapi tei).2.1, (key out sapi tei).2.2, (key2 tei).1, (key2 tei).2⟩

/-- the packet type in these records is written in host order and is the same for both directions: no reader can
tell received from sent messages by it -/
theorem sign_direction_violated (sec : Nat) (out : Bool) (sapi tei : Byte) (d : List Byte) :
    lapd (signPacket sec out sapi tei d) = none := by
  have hl : ¬ ((signPacket sec out sapi tei d).data.length < 16 ∨ beNum (((signPacket sec out sapi tei d).data.drop 14).take 2) ≠ 48) := by
    rintro (h | h)
    · simp [signPacket] at h
      omega
    · exact h rfl
  unfold lapd
  rw [if_neg hl]
  rfl

end Verif.Pcap
