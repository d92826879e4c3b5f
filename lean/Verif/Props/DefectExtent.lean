import Verif.Props.IpaProxy
import Verif.Props.IpAccessCfg
import Verif.Props.E1Vty
import Verif.Props.E1d
import Verif.Props.Rs232
import Verif.Props.RtpBugs
import Verif.Props.LapdExact
import Verif.Props.EricssonErr
/-!
# Exact extent of further defects (C55, C72, C77, C80, C103, C108, C123, C127, C135)

For properties that hold only partially, these theorems say for exactly which inputs they hold.
-/
set_option maxRecDepth 10000

namespace Verif.IpaProxy

/-- the routes between two instances, in the order in which they were added -/
def between (w : W) (a b : Nat) : List Route :=
  w.routes.filter (fun r => (sh? w r.sh).any (fun x => decide (x.src = a) && decide (x.dst = b)))

theorem firstRoute_head (w : W) (a b : Nat) : (firstRoute w a b).map (·.1) = (between w a b).head? := by
  simp only [firstRoute, between]
  induction w.routes with
  | nil => rfl
  | cons r rs ih =>
    rw [List.findSome?_cons, List.filter_cons]
    cases hs : sh? w r.sh with
    | none => simpa [hs] using ih
    | some x =>
      by_cases hc : x.src = a ∧ x.dst = b
      · simp [hc]
      · simp only [Option.any_some, if_neg hc]
        rw [if_neg (by simpa using hc)]
        exact ih

/-- **C55** (exact) A new route is refused exactly if its arguments are invalid, or it equals the first route between the two
instances, or it is the first one and the socket can not be opened: of several routes between two instances, only the first one
can not be added again. -/
theorem C55_refused_iff (w : W) (sn dn : List Byte) (s d : Nat) (o : Bool) :
    (routeAdd w sn s dn d o).2 = .warning ↔
      args w sn s dn d = none ∨ ∃ a b, args w sn s dn d = some (a, b) ∧
        ((∃ r, (between w a.id b.id).head? = some r ∧ r.s = BitVec.ofNat 8 s ∧ r.d = BitVec.ofNat 8 d) ∨
         (between w a.id b.id = [] ∧ o = false)) := by
  cases h : args w sn s dn d with
  | none => simp [routeAdd, h]
  | some p =>
    obtain ⟨a, b⟩ := p
    have hh := firstRoute_head w a.id b.id
    cases hf : firstRoute w a.id b.id with
    | none =>
      rw [hf] at hh
      have e : between w a.id b.id = [] := by simpa using hh.symm
      simp only [routeAdd, h, hf]
      cases o
      · simp only [Bool.false_eq_true, if_false, true_iff]
        exact .inr ⟨a, b, rfl, .inr ⟨e, trivial⟩⟩
      · simp only [if_true]
        constructor
        · intro h; cases h
        · rintro (h | ⟨a', b', h, ⟨r, h1, -⟩ | h'⟩)
          · cases h
          · cases h; rw [e] at h1; simp at h1
          · cases h'.2
    | some q =>
      obtain ⟨r, x⟩ := q
      rw [hf] at hh
      simp only [Option.map_some] at hh
      have ne : between w a.id b.id ≠ [] := by intro e; rw [e] at hh; simp at hh
      simp only [routeAdd, h, hf]
      by_cases hc : r.s = BitVec.ofNat 8 s ∧ r.d = BitVec.ofNat 8 d
      · rw [if_pos hc]
        simp only [true_iff]
        exact .inr ⟨a, b, rfl, .inl ⟨r, hh.symm, hc⟩⟩
      · rw [if_neg hc]
        constructor
        · intro h; cases h
        · rintro (h | ⟨a', b', h, h' | h'⟩)
          · cases h
          · cases h
            obtain ⟨r', h1, h2⟩ := h'
            rw [← hh] at h1
            cases h1
            exact absurd h2 hc
          · cases h; exact absurd h'.1 ne

/-- **C108** (exact) Deleting an instance faults exactly if there is none of that name. -/
theorem C108_instance_fault_iff (w : W) (n : List Byte) :
    (∃ f, instDel w n = .error f) ↔ ∀ i ∈ w.insts, nameEq i.name n = false := by
  constructor
  · rintro ⟨f, h⟩ i hi
    simp only [instDel] at h
    cases hf : w.insts.find? (fun i => nameEq i.name n) with
    | none => simpa using List.find?_eq_none.1 hf i hi
    | some j =>
      rw [hf] at h
      simp only at h
      split at h <;> cases h
  · exact fun h => ⟨_, C108_unknown_instance_violated w n h⟩

theorem theRoute_none {w : W} {a b : Nat} {s d : Byte} (h : theRoute w a b s d = none) : ∀ r ∈ between w a b, ¬ (r.s = s ∧ r.d = d) := by
  intro r hr hc
  simp only [between, List.mem_filter] at hr
  have := List.findSome?_eq_none_iff.1 h r hr.1
  cases hs : sh? w r.sh with
  | none => rw [hs] at hr; simp at hr
  | some x =>
    rw [hs] at hr this
    simp only [Option.any_some, Bool.and_eq_true, decide_eq_true_eq] at hr
    simp only [if_pos (show x.src = a ∧ x.dst = b ∧ r.s = s ∧ r.d = d from ⟨hr.2.1, hr.2.2, hc⟩)] at this
    cases this

/-- the routes between two instances share one object -/
theorem between_sh {w : W} (hI : InvR w) {r : Route} (hr : r ∈ w.routes) {x : Sh} (hx : sh? w r.sh = some x) :
    between w x.src x.dst = w.routes.filter (fun q => q.sh == x.id) := by
  apply List.filter_congr
  intro q hq
  obtain ⟨y, hy, hyq⟩ := hI.hsh q hq
  have h1 := sh_mem hI.ns hy
  rw [hyq] at h1
  rw [h1, Option.any_some]
  have hxm := sh_some hx
  by_cases e : y.src = x.src ∧ y.dst = x.dst
  · have := hI.pair y hy x hxm.1 e.1 e.2
    subst this
    simp [hyq]
  · have : q.sh ≠ x.id := by
      intro e2
      have : y = x := by
        have h2 := sh_mem hI.ns hxm.1
        rw [← e2, h1] at h2
        exact Option.some.inj h2
      subst this; exact e ⟨rfl, rfl⟩
    rw [show (q.sh == x.id) = false from beq_eq_false_iff_ne.2 this]
    simpa using e

/-- **C108** (exact) In every history, deleting a route faults exactly if the route exists and is the only one between its two
instances. -/
theorem C108_route_fault_iff (ops : List Op) (w : W) (hw : run init ops = .ok w) (sn dn : List Byte) (s d : Nat) :
    (∃ f, routeDel w sn s dn d = .error f) ↔
      ∃ a b r, args w sn s dn d = some (a, b) ∧ between w a.id b.id = [r] ∧ r.s = BitVec.ofNat 8 s ∧ r.d = BitVec.ofNat 8 d := by
  have hI := (run_inv init_inv.1 init_inv.2 hw).1
  cases h : args w sn s dn d with
  | none => simp [routeDel, h]
  | some p =>
    obtain ⟨a, b⟩ := p
    cases hf : theRoute w a.id b.id (BitVec.ofNat 8 s) (BitVec.ofNat 8 d) with
    | none =>
      simp only [routeDel, h, hf]
      constructor
      · rintro ⟨f, h⟩; cases h
      · rintro ⟨a', b', r, h1, h2, h3⟩
        cases h1
        exact absurd h3 (theRoute_none hf r (by rw [h2]; simp))
    | some q =>
      obtain ⟨r, x⟩ := q
      obtain ⟨hr, hx, rfl', rfl'', h1, h2⟩ := theRoute_some hf
      have hb := between_sh hI hr hx
      rw [rfl', rfl''] at hb
      have hm := sh_some hx
      have hcnt := hI.hcnt x hm.1
      rw [List.countP_eq_length_filter, ← hb] at hcnt
      have hrm : r ∈ between w a.id b.id := by
        rw [hb, List.mem_filter]; exact ⟨hr, by simp [hm.2]⟩
      simp only [routeDel, h, hf]
      by_cases hc : x.refcnt - 1 = 0
      · rw [if_pos hc]
        refine ⟨fun _ => ?_, fun _ => ⟨_, rfl⟩⟩
        have : (between w a.id b.id).length = 1 := by omega
        match hl : between w a.id b.id, this with
        | [r'], _ =>
          rw [hl] at hrm
          have : r = r' := by simpa using hrm
          subst this
          exact ⟨a, b, r, rfl, hl, h1, h2⟩
      · rw [if_neg hc]
        constructor
        · rintro ⟨f, h⟩; cases h
        · rintro ⟨a', b', r', h3, h4, -⟩
          cases h3
          rw [h4] at hcnt
          simp at hcnt
          omega

/-- two routes: the first one can be deleted, then deleting the other one faults -/
example : ∃ w, run init [.instAdd nA true, .instAdd nB false, .routeAdd nA 1 nB 1 true, .routeAdd nA 3 nB 3 true, .routeDel nA 1 nB 1] = .ok w ∧
    (w.routes.map fun r => (r.s, r.d)) = [(3, 3)] ∧ routeDel w nA 3 nB 3 = .error .badptr := ⟨_, rfl, by decide +kernel, rfl⟩

end Verif.IpaProxy

namespace Verif.IpAccess.Cfg

/-- **C123** (exact) A socket has the configured DSCP and priority exactly if the two values are equal. -/
theorem C123_iff (p : Pars) (line addr port : Nat) :
    (OmlAs p (omlSock p line) ↔ p.omlDscp = p.omlPrio) ∧ (OmlAs p (omlCli p line addr) ↔ p.omlDscp = p.omlPrio) ∧
    (RslAs p (rslSock p line) ↔ p.rslDscp = p.rslPrio) ∧ (RslAs p (rslCli p line addr port) ↔ p.rslDscp = p.rslPrio) :=
  ⟨⟨fun h => h.2, fun h => ⟨h.symm, h⟩⟩, ⟨fun h => h.2, fun h => ⟨h.symm, h⟩⟩, ⟨fun h => h.2, fun h => ⟨h.symm, h⟩⟩, ⟨fun h => h.2, fun h => ⟨h.symm, h⟩⟩⟩

end Verif.IpAccess.Cfg

namespace Verif.Vty

/-- **C127** (exact) A command faults exactly if it is `no e1_line pcap` for a line that does not exist. -/
theorem C127_fault_iff (c : Cfg) (ok : Bool) (cmd : Cmd) : (∃ f, exec c ok cmd = .error f) ↔ ∃ n, cmd = .noPcap n ∧ find c n = none :=
  ⟨fun ⟨_, h⟩ => C127_safe h, fun ⟨_, h, hl⟩ => ⟨_, h ▸ C127_noPcap_violated hl ok⟩⟩

end Verif.Vty

namespace Verif.E1d

/-- **C135** (exact) Given that no two lines have the same port number, an alarm for interface `i` and line `n` is signalled for the
line with port number `p` exactly if `p` is the sum of `16 * i` and `n` *modulo 256*; it should be the sum itself. -/
theorem C135_alarm_iff {ports : List (Nat × Nat)} {l p : Nat} (hm : (l, p) ∈ ports) (hu : ∀ x ∈ ports, ∀ y ∈ ports, x.2 = y.2 ↔ x.1 = y.1)
    (i n : Byte) (hn : n.toNat < 16) (x : Alarm × Sig) (hx : x ∈ signals) (data : List Byte) :
    eventCb ports x.1 i n data = some (l, x.2, 0) ↔ p = (16 * i.toNat + n.toNat) % 256 := by
  have e : (i <<< 4 ||| n).toNat = (16 * i.toNat + n.toNat) % 256 := by
    have := hn
    revert i n
    decide +kernel
  have sg : sigOf x.1 data = some (x.2, 0) := by
    simp only [signals, List.mem_cons, List.not_mem_nil, or_false] at hx
    rcases hx with rfl | rfl | rfl | rfl | rfl | rfl | rfl | rfl <;> rfl
  simp only [eventCb, e, sg]
  constructor
  · intro h
    cases hf : portFind ports ((16 * i.toNat + n.toNat) % 256) with
    | none => rw [hf] at h; cases h
    | some k =>
      rw [hf] at h
      simp only [Option.map_some, Option.some.injEq, Prod.mk.injEq, and_true] at h
      subst h
      simp only [portFind, Option.map_eq_some_iff] at hf
      obtain ⟨y, hy, hy2⟩ := hf
      have h1 := List.mem_of_find?_eq_some hy
      have h2 := List.find?_some hy
      simp only [beq_iff_eq] at h2
      have := (hu y h1 (k, p) hm).2 hy2
      rw [← h2, this]
  · intro h
    rw [← h, find_port hm (fun y hy h => (hu y hy (l, p) hm).1 h)]
    rfl

/-- interface 16 -/
example : eventCb [(0, 0), (1, 1)] .losOn 16 1 [] = some (1, .los, 0) ∧ (1 = (16 * 16 + 1) % 256) := by decide +kernel

end Verif.E1d

namespace Verif.Rs232

/-- **C103** (exact) The frame of a message is sent completely exactly if `write()` takes all of it; otherwise just the octets it
took are sent, and an error is returned. -/
theorem C103_complete_iff (d : List Byte) (n : Int) :
    ((serWrite (some d) n).2 = [.write (buildMsg d)] ↔ (buildMsg d).length ≤ n) ∧ ((serWrite (some d) n).1 = 0 ↔ (buildMsg d).length ≤ n) ∧
    (n < (buildMsg d).length → serWrite (some d) n = (-1, [.write ((buildMsg d).take n.toNat)])) := by
  simp only [serWrite]
  by_cases h : n < (buildMsg d).length
  · rw [if_pos h]
    have : ¬ ((buildMsg d).length : Int) ≤ n := by omega
    refine ⟨⟨fun h2 => ?_, fun h2 => absurd h2 this⟩, ⟨(fun h2 => by simp at h2), fun h2 => absurd h2 this⟩, fun _ => rfl⟩
    simp only [List.cons.injEq, Act.write.injEq, and_true] at h2
    have := congrArg List.length h2
    rw [List.length_take] at this
    have hp : 0 < (buildMsg d).length := by simp [buildMsg]
    omega
  · rw [if_neg h]
    have : ((buildMsg d).length : Int) ≤ n := by omega
    exact ⟨⟨fun _ => this, fun _ => rfl⟩, ⟨fun _ => this, fun _ => rfl⟩, fun h2 => absurd h2 h⟩

end Verif.Rs232

namespace Verif.RtpConv
open Verif Verif.Trau Verif.Spec.Trau Verif.Spec.Rtp

/-- **C72 (half rate, 16k)** (exact) The control bits of the frame do not depend on the former contents of the frame structure exactly if
it is a down-link frame or C15 was the same already. -/
theorem C72_hr16_iff (K : Codec) (st : State) (hst : st.type = .hr) {tf1 tf2 : Frame} (h1 : tf1.WF) (h2 : tf2.WF)
    (hd : tf1.dir = tf2.dir) {data pl : List Byte} (hp : pl.length = 14) (hdata : data = pl ∨ ∃ x, data = x :: pl) :
    ∃ r1 r2, rtp2trau K st tf1 data = .ok (0, r1) ∧ rtp2trau K st tf2 data = .ok (0, r2) ∧
      (r1.c.take 21 = r2.c.take 21 ↔ tf1.dir = .dl ∨ tf1.c[14]? = tf2.c[14]?) := by
  obtain ⟨r1, r2, a1, a2, -, b1, b2, b3, -⟩ := C72_hr16_partial K st hst h1 h2 hd hp hdata
  refine ⟨r1, r2, a1, a2, ?_⟩
  cases hdir : tf1.dir with
  | dl => simp [b3 hdir]
  | ul =>
    obtain ⟨q1, c1, d1⟩ := C72_hr16_violated K st hst h1 hdir hp hdata
    obtain ⟨q2, c2, d2⟩ := C72_hr16_violated K st hst h2 (hd ▸ hdir) hp hdata
    rw [a1] at c1; rw [a2] at c2
    obtain rfl := (Prod.mk.inj (Except.ok.inj c1)).2
    obtain rfl := (Prod.mk.inj (Except.ok.inj c2)).2
    rw [← d1, ← d2]
    constructor
    · intro h
      have := congrArg (fun l => l[14]?) h
      simp only [List.getElem?_take] at this
      exact .inr (by simpa using this)
    · rintro (h | h)
      · cases h
      · apply List.ext_getElem?
        intro i
        rcases Nat.lt_trichotomy i 14 with g | g | g
        · have := congrArg (fun l => l[i]?) b1
          simp only [List.getElem?_take, g, if_true] at this
          rw [List.getElem?_take, List.getElem?_take, if_pos (by omega), if_pos (by omega), this]
        · subst g
          rw [List.getElem?_take, List.getElem?_take, if_pos (by omega), if_pos (by omega), h]
        · have := congrArg (fun l => l[i - 15]?) b2
          simp only [List.getElem?_drop] at this
          rwa [show 15 + (i - 15) = i by omega] at this

end Verif.RtpConv
namespace Verif.Lapd
open Verif.Spec.Lapd

/-- **C80** (exact) Every service access point can be started, but frames reach it exactly if its SAPI is at most 63. -/
theorem C80_usable_iff (li : Li) (hk : li.profile.k.length = 64) (t s : Byte) (ht : t.toNat < 127)
    (hn : lookup li t s = none) (rc : Int) :
    ∃ (li' : Li) (p : Sap), sapStart li t s rc = .ok (li', rc, [.dlReq .est p.id []]) ∧ p.sapi = s ∧
      ((∃ d rc' r l pl, receive li' d rc' = .ok r ∧ Act.phDataInd l pl ∈ r.acts ∧ l.dl = p.id ∧ l.sapi = s) ↔ s.toNat ≤ 63) := by
  obtain ⟨li', p, h1, h2, -⟩ := C52_start_new li hk t s rc hn
  refine ⟨li', p, h1, h2, ?_⟩
  have et : oct t.toNat = t := BitVec.ofNat_toNat 8 t |>.trans (by simp)
  have es : oct s.toNat = s := BitVec.ofNat_toNat 8 s |>.trans (by simp)
  constructor
  · rintro ⟨d, rc', r, l, pl, hr, hm, -, hs⟩
    by_cases h : s.toNat ≤ 63
    · exact h
    · have hk' : li'.profile.k.length = 64 := by
        have : li'.profile = li.profile := by
          unfold sapStart at h1
          cases he : teipFromTei li t with
          | none =>
            obtain ⟨p', hp', -⟩ := sapAlloc_ok (teiAlloc li t) hk t s
            simp only [he, sapStartOn, sapFind, List.find?_nil, hp', bind_ok] at h1
            have := (Prod.mk.inj (Except.ok.inj h1)).1
            rw [← this]; rfl
          | some e =>
            rw [lookup_of_teip he] at hn
            obtain ⟨p', hp', -⟩ := sapAlloc_ok li hk t s
            simp only [he, sapStartOn, hn, hp', bind_ok] at h1
            have := (Prod.mk.inj (Except.ok.inj h1)).1
            rw [← this]
        rw [this]; exact hk
      exact absurd hs ((C80_violated li hk t s (by omega) hn rc).2 li' d rc' r hk' hr l pl hm)
  · intro h
    obtain ⟨li2, p2, q1, li3, l, q2, q3, q4⟩ := C80_usable_partial li hk ⟨s.toNat, t.toNat, 0, .unnum 0 0⟩
      ⟨by show s.toNat < 64; omega, by show t.toNat < 128; omega, by show 0 < 2; omega, by show 0 < 32; omega, by show 0 < 2; omega⟩
      (by show t.toNat ≠ 127; omega) (by show lookup li (oct t.toNat) (oct s.toNat) = none; rw [et, es]; exact hn) [] (Nat.zero_le _) rc rc
    simp only [et, es, h1] at q1
    obtain ⟨rfl, q⟩ := Prod.mk.inj (Except.ok.inj q1)
    have qp : p.id = p2.id := by
      have := (Prod.mk.inj q).2
      simpa using this
    exact ⟨_, rc, _, l, [], q2, by simp, q3.trans qp.symm, q4.1.trans es⟩

end Verif.Lapd

namespace Verif.Ericsson
open Verif Spec

/-- **C77** (exact) What is decoded of a 64 kbit/s frame does not depend on the former contents of the stack exactly if the frame is no
(valid) MCS-9 frame. -/
theorem C77_independent_iff (b : List Bool) (hb : b.length = 1280) :
    (∀ g g' : List Bool, g.length = 1234 → g'.length = 1234 → decode64 g b = decode64 g' b) ↔ ¬ ∃ j, IsCcuMcs9 b j := by
  constructor
  · rintro h ⟨j, hj⟩
    exact C77_violated b hb j hj (h _ _ (List.length_replicate ..) (List.length_replicate ..))
  · intro h g g' hg hg'
    by_cases hft : fld b 65 5 = lsb 5 0x04
    · have e1 : (∀ i, ¬ IsCcuSync64 b i) := by intro i hi; have := hi.ft.symm.trans hft; revert this; decide
      have e2 : (∀ i, ¬ IsCcuData64 b i) := by intro i hi; have := hi.ft.symm.trans hft; revert this; decide
      have e3 : (∀ i, ¬ IsCcuMcs9 b i) := fun i hi => h ⟨i, hi⟩
      exact (rejected64 hg hb e1 e2 e3).trans (rejected64 hg' hb e1 e2 e3).symm
    · exact C77_independent_partial g g' b hb hft

end Verif.Ericsson
