import Verif.Props.LapdHist
/-!
# C158: the parameters of LAPD data links; messages without effect
-/
namespace Verif.Lapd
open Verif Verif.Spec.Lapd

/-! ### specification -/

/-- all SAPs of an instance -/
def allSaps (li : Li) : List Sap := li.teis.flatMap (·.saps)

/-- the data link works as the profile demands: window of its SAPI, N200, N201, T200, T203 -/
structure Works (q : Profile) (network : Bool) (s : Sap) : Prop where
  k : q.k[s.sapi.toNat % 64]? = some s.k
  n200 : s.n200 = q.n200
  n201 : s.maxf = q.n201
  t200 : s.t200 = q.t200
  t203 : s.t203 = q.t203
  side : s.network = network

/-- one of the profiles the library offers -/
def offered : List Profile := [profileIsdn, profileAbis, profileAbisEricsson, profileSat]

/-! ### proofs -/

theorem mod64 : ∀ s : Byte, (s &&& 0x3f).toNat = s.toNat % 64 := by decide +kernel

/-- SAPs in `li'`: those of `li`, or one set up with the profile of `li` -/
def OldOrNew (li li' : Li) : Prop :=
  ∀ s ∈ allSaps li', s ∈ allSaps li ∨ (s.id = li.nextId ∧ li.nextId < li'.nextId ∧ Works li.profile li.networkSide s)

theorem oldOrNew_same {li li' : Li} (h : li'.teis = li.teis) : OldOrNew li li' := by
  intro s hs; left; unfold allSaps at hs ⊢; rwa [h] at hs

theorem allSaps_updTei {l : List Tei} {t : Byte} {p s : Sap} (h : s ∈ (updTei l t (fun e => { e with saps := p :: e.saps })).flatMap (·.saps)) :
    s = p ∨ s ∈ l.flatMap (·.saps) := by
  rw [List.mem_flatMap] at h
  obtain ⟨e, he, hs⟩ := h
  rcases mem_updTei he with he | ⟨e', he', rfl⟩
  · exact .inr (List.mem_flatMap.2 ⟨e, he, hs⟩)
  · rcases List.mem_cons.1 hs with rfl | hs
    · exact .inl rfl
    · exact .inr (List.mem_flatMap.2 ⟨e', List.mem_of_find?_eq_some he', hs⟩)

theorem sapAlloc_new {li : Li} {t s : Byte} {r : Li × Sap} (h : sapAlloc li t s = .ok r) : OldOrNew li r.1 := by
  unfold sapAlloc newSap at h
  cases hk : rd li.profile.k (s &&& 0x3f).toNat with
  | error e => rw [hk] at h; cases h
  | ok k =>
    rw [hk] at h
    obtain rfl := Except.ok.inj h
    intro x hx
    rcases allSaps_updTei hx with rfl | hx
    · right
      refine ⟨rfl, Nat.lt_succ_self _, ⟨?_, rfl, rfl, rfl, rfl, rfl⟩⟩
      unfold rd at hk
      rw [← mod64]
      split at hk
      · rename_i e; rw [← Except.ok.inj hk]; exact e
      · cases hk
    · exact .inl hx

theorem teiAlloc_old (li : Li) (t : Byte) : OldOrNew li (teiAlloc li t) := by
  intro s hs; left; simpa [allSaps, teiAlloc] using hs

theorem receive_new {li : Li} {d : List Byte} {rc : Int} {r : Rx} (h : receive li d rc = .ok r) : OldOrNew li r.li := by
  unfold receive at h
  cases hp : parseHeader d with
  | error e => rw [hp] at h; cases h
  | ok p =>
    rw [hp, bind_ok] at h
    cases hq : receiveParsed li d rc p with
    | error e => rw [hq] at h; cases h
    | ok q =>
      rw [hq, bind_ok] at h
      obtain rfl := Except.ok.inj h
      show OldOrNew li q.li
      cases p with
      | none => obtain rfl := Except.ok.inj hq; exact oldOrNew_same rfl
      | some x =>
        obtain ⟨l, i⟩ := x
        simp only [receiveParsed, receiveBody] at hq
        split at hq
        · cases ht : teiReceive li (d.drop i) with
          | error e => rw [ht] at hq; cases hq
          | ok y =>
            rw [ht, bind_ok] at hq
            obtain rfl := Except.ok.inj hq
            show OldOrNew li y.1
            unfold teiReceive at ht
            split at ht
            · obtain rfl := Except.ok.inj ht; exact oldOrNew_same rfl
            · cases h3 : rd (d.drop i) 3 with
              | error e => rw [h3] at ht; cases ht
              | ok b3 =>
                rw [h3, bind_ok] at ht
                cases h4 : rd (d.drop i) 4 with
                | error e => rw [h4] at ht; cases ht
                | ok b4 =>
                  rw [h4, bind_ok] at ht
                  simp only at ht
                  split at ht
                  · obtain rfl := Except.ok.inj ht
                    show OldOrNew li (ensureTei li _)
                    unfold ensureTei
                    split
                    · exact oldOrNew_same rfl
                    · exact teiAlloc_old _ _
                  · obtain rfl := Except.ok.inj ht; exact oldOrNew_same rfl
        · unfold dispatch at hq
          split at hq
          · obtain rfl := Except.ok.inj hq; exact oldOrNew_same rfl
          · rename_i e _
            simp only at hq
            cases hs : ensureSap li e l.tei l.sapi with
            | error e => rw [hs] at hq; cases hq
            | ok s =>
              rw [hs, bind_ok] at hq
              obtain rfl := Except.ok.inj hq
              have e1 : ∀ lc, (deliver s.1 s.2 lc (d.drop i) rc).li = s.1 := by
                intro lc; unfold deliver; simp only; split <;> rfl
              rw [e1]
              unfold ensureSap at hs
              split at hs
              · obtain rfl := Except.ok.inj hs; exact oldOrNew_same rfl
              · exact sapAlloc_new hs

theorem sapStart_new {li : Li} {t s : Byte} {rc : Int} {r : Li × Int × List Act} (h : sapStart li t s rc = .ok r) : OldOrNew li r.1 := by
  have key : ∀ (li0 : Li) (e : Tei), sapStartOn li0 e t s rc = .ok r → OldOrNew li0 r.1 := by
    intro li0 e h
    unfold sapStartOn at h
    split at h
    · obtain rfl := Except.ok.inj h; exact oldOrNew_same rfl
    · cases ha : sapAlloc li0 t s with
      | error e => rw [ha] at h; cases h
      | ok x => rw [ha] at h; obtain rfl := Except.ok.inj h; exact sapAlloc_new ha
  unfold sapStart at h
  split at h
  · exact key _ _ h
  · have := key _ _ h
    intro x hx
    rcases this x hx with q | q
    · exact .inl (by simpa [allSaps, teiAlloc] using q)
    · exact .inr q

theorem step_new {li li' : Li} {op : Op} {acts : List Act} (h : step li op = .ok (li', acts)) : OldOrNew li li' := by
  cases op with
  | receive d rc =>
    simp only [step] at h
    cases hr : receive li d rc with
    | error e => rw [hr] at h; cases h
    | ok r => rw [hr] at h; obtain ⟨rfl, -⟩ := Prod.mk.inj (Except.ok.inj h); exact receive_new hr
  | sapStart t s rc =>
    simp only [step] at h
    cases hr : sapStart li t s rc with
    | error e => rw [hr] at h; cases h
    | ok r => rw [hr] at h; obtain ⟨rfl, -⟩ := Prod.mk.inj (Except.ok.inj h); exact sapStart_new hr
  | sapStop t s rc => obtain ⟨rfl, -⟩ := Prod.mk.inj (Except.ok.inj h); exact oldOrNew_same rfl
  | transmit t s m => obtain ⟨rfl, -⟩ := Prod.mk.inj (Except.ok.inj h); exact oldOrNew_same rfl
  | teiAlloc t => obtain ⟨rfl, -⟩ := Prod.mk.inj (Except.ok.inj h); exact teiAlloc_old _ _
  | setProfile p => obtain ⟨rfl, -⟩ := Prod.mk.inj (Except.ok.inj h); exact oldOrNew_same rfl
  | coreTx l p hd =>
    simp only [step] at h
    cases hr : sendPhDataReq li l p hd with
    | error e => rw [hr] at h; cases h
    | ok r => rw [hr] at h; obtain ⟨rfl, -⟩ := Prod.mk.inj (Except.ok.inj h); exact oldOrNew_same rfl
  | coreInd l prim p =>
    simp only [step, sendDlsap] at h
    split at h
    · cases h
    · split at h
      · obtain ⟨rfl, -⟩ := Prod.mk.inj (Except.ok.inj h)
        intro s hs
        left
        simp only [allSaps, sapFree, List.mem_flatMap, List.mem_map] at hs ⊢
        obtain ⟨t, ⟨t', ht', rfl⟩, hs⟩ := hs
        exact ⟨t', ht', (List.mem_filter.1 hs).1⟩
      · obtain ⟨rfl, -⟩ := Prod.mk.inj (Except.ok.inj h); exact oldOrNew_same rfl

theorem run_snoc {li : Li} {a b : List Op} {li' : Li} {acts : List Act} (h : run li (a ++ b) = .ok (li', acts)) :
    ∃ li1 a1 a2, run li a = .ok (li1, a1) ∧ run li1 b = .ok (li', a2) ∧ acts = a1 ++ a2 := by
  induction a generalizing li acts with
  | nil => exact ⟨li, [], acts, rfl, h, rfl⟩
  | cons o a ih =>
    rw [List.cons_append] at h
    unfold run at h
    cases hs : step li o with
    | error e => rw [hs] at h; cases h
    | ok r =>
      rw [hs, bind_ok] at h
      cases hr : run r.1 (a ++ b) with
      | error e => rw [hr] at h; cases h
      | ok q =>
        rw [hr, bind_ok] at h
        obtain ⟨rfl, rfl⟩ := Prod.mk.inj (Except.ok.inj h)
        obtain ⟨li1, a1, a2, e1, e2, e3⟩ := ih hr
        refine ⟨li1, r.2 ++ a1, a2, ?_, e2, by rw [e3, List.append_assoc]⟩
        unfold run
        rw [hs, bind_ok, e1, bind_ok]

/-- the profile in force after a history: the last one set -/
def current (p : Profile) : List Op → Profile
  | [] => p
  | .setProfile q :: ops => current q ops
  | _ :: ops => current p ops

theorem step_profile {li li' : Li} {op : Op} {acts : List Act} (h : step li op = .ok (li', acts)) :
    li'.profile = current li.profile [op] ∧ li'.networkSide = li.networkSide := by
  have key : ∀ {l l' : Li}, Eff l l' → l'.profile = l.profile ∧ l'.networkSide = l.networkSide := by
    intro l l' e; cases e <;> exact ⟨rfl, rfl⟩
  have ks : ∀ {l : Li} {t s : Byte} {r : Li × Sap}, sapAlloc l t s = .ok r → r.1.profile = l.profile ∧ r.1.networkSide = l.networkSide := by
    intro l t s r h
    unfold sapAlloc newSap at h
    cases hk : rd l.profile.k (s &&& 0x3f).toNat with
    | error e => rw [hk] at h; cases h
    | ok k => rw [hk] at h; obtain rfl := Except.ok.inj h; exact ⟨rfl, rfl⟩
  cases op with
  | receive d rc =>
    simp only [step] at h
    cases hr : receive li d rc with
    | error e => rw [hr] at h; cases h
    | ok r =>
      rw [hr] at h; obtain ⟨rfl, -⟩ := Prod.mk.inj (Except.ok.inj h)
      show r.li.profile = li.profile ∧ _
      unfold receive at hr
      cases hp : parseHeader d with
      | error e => rw [hp] at hr; cases hr
      | ok p =>
        rw [hp, bind_ok] at hr
        cases hq : receiveParsed li d rc p with
        | error e => rw [hq] at hr; cases hr
        | ok q =>
          rw [hq, bind_ok] at hr
          obtain rfl := Except.ok.inj hr
          show q.li.profile = _ ∧ q.li.networkSide = _
          cases p with
          | none => obtain rfl := Except.ok.inj hq; exact ⟨rfl, rfl⟩
          | some x =>
            obtain ⟨l, i⟩ := x
            simp only [receiveParsed, receiveBody] at hq
            split at hq
            · cases ht : teiReceive li (d.drop i) with
              | error e => rw [ht] at hq; cases hq
              | ok y =>
                rw [ht, bind_ok] at hq
                obtain rfl := Except.ok.inj hq
                show y.1.profile = _ ∧ y.1.networkSide = _
                unfold teiReceive at ht
                split at ht
                · obtain rfl := Except.ok.inj ht; exact ⟨rfl, rfl⟩
                · cases h3 : rd (d.drop i) 3 with
                  | error e => rw [h3] at ht; cases ht
                  | ok b3 =>
                    rw [h3, bind_ok] at ht
                    cases h4 : rd (d.drop i) 4 with
                    | error e => rw [h4] at ht; cases ht
                    | ok b4 =>
                      rw [h4, bind_ok] at ht
                      simp only at ht
                      split at ht
                      · obtain rfl := Except.ok.inj ht
                        exact key (ensureTei_eff li _).1
                      · obtain rfl := Except.ok.inj ht; exact ⟨rfl, rfl⟩
            · unfold dispatch at hq
              split at hq
              · obtain rfl := Except.ok.inj hq; exact ⟨rfl, rfl⟩
              · rename_i e _
                simp only at hq
                cases hs : ensureSap li e l.tei l.sapi with
                | error e => rw [hs] at hq; cases hq
                | ok s =>
                  rw [hs, bind_ok] at hq
                  obtain rfl := Except.ok.inj hq
                  have e1 : ∀ lc, (deliver s.1 s.2 lc (d.drop i) rc).li = s.1 := by
                    intro lc; unfold deliver; simp only; split <;> rfl
                  rw [e1]
                  unfold ensureSap at hs
                  split at hs
                  · obtain rfl := Except.ok.inj hs; exact ⟨rfl, rfl⟩
                  · exact ks hs
  | sapStart t s rc =>
    simp only [step] at h
    have kk : ∀ (li0 : Li) (e : Tei) (r : Li × Int × List Act), sapStartOn li0 e t s rc = .ok r → r.1.profile = li0.profile ∧ r.1.networkSide = li0.networkSide := by
      intro li0 e r h
      unfold sapStartOn at h
      split at h
      · obtain rfl := Except.ok.inj h; exact ⟨rfl, rfl⟩
      · cases ha : sapAlloc li0 t s with
        | error e => rw [ha] at h; cases h
        | ok x => rw [ha] at h; obtain rfl := Except.ok.inj h; exact ks ha
    cases hr : sapStart li t s rc with
    | error e => rw [hr] at h; cases h
    | ok r =>
      rw [hr] at h; obtain ⟨rfl, -⟩ := Prod.mk.inj (Except.ok.inj h)
      show r.1.profile = li.profile ∧ _
      unfold sapStart at hr
      split at hr
      · have q := kk _ _ _ hr
        exact ⟨q.1, q.2⟩
      · have q := kk _ _ _ hr
        exact ⟨q.1, q.2⟩
  | sapStop t s rc => obtain ⟨rfl, -⟩ := Prod.mk.inj (Except.ok.inj h); exact ⟨rfl, rfl⟩
  | transmit t s m => obtain ⟨rfl, -⟩ := Prod.mk.inj (Except.ok.inj h); exact ⟨rfl, rfl⟩
  | teiAlloc t => obtain ⟨rfl, -⟩ := Prod.mk.inj (Except.ok.inj h); exact ⟨rfl, rfl⟩
  | setProfile p => obtain ⟨rfl, -⟩ := Prod.mk.inj (Except.ok.inj h); exact ⟨rfl, rfl⟩
  | coreTx l p hd =>
    simp only [step] at h
    cases hr : sendPhDataReq li l p hd with
    | error e => rw [hr] at h; cases h
    | ok r => rw [hr] at h; obtain ⟨rfl, -⟩ := Prod.mk.inj (Except.ok.inj h); exact ⟨rfl, rfl⟩
  | coreInd l prim p =>
    simp only [step, sendDlsap] at h
    split at h
    · cases h
    · split at h <;> (obtain ⟨rfl, -⟩ := Prod.mk.inj (Except.ok.inj h); exact ⟨rfl, rfl⟩)

theorem current_cons (p : Profile) (o : Op) (ops : List Op) : current p (o :: ops) = current (current p [o]) ops := by
  cases o <;> rfl

theorem run_profile {li li' : Li} {ops : List Op} {acts : List Act} (h : run li ops = .ok (li', acts)) :
    li'.profile = current li.profile ops ∧ li'.networkSide = li.networkSide := by
  induction ops generalizing li acts with
  | nil => cases h; exact ⟨rfl, rfl⟩
  | cons o ops ih =>
    unfold run at h
    cases hs : step li o with
    | error e => rw [hs] at h; cases h
    | ok r =>
      rw [hs, bind_ok] at h
      cases hr : run r.1 ops with
      | error e => rw [hr] at h; cases h
      | ok q =>
        rw [hr, bind_ok] at h
        obtain ⟨rfl, -⟩ := Prod.mk.inj (Except.ok.inj h)
        obtain ⟨p1, p2⟩ := step_profile (acts := r.2) hs
        obtain ⟨i1, i2⟩ := ih (li := r.1) (acts := q.2) hr
        exact ⟨by rw [i1, p1, current_cons li.profile o ops], by rw [i2, p2]⟩

/-- **C158** after every history: each data link that exists was set up at some point of the history, did not exist before, and has the parameters of the profile that was in force then (the last one set before,
or the one given when the instance was allocated) -/
theorem C158_params (n : Bool) (a b c d : Ptr) (p : Profile) (ops : List Op) {li : Li} {acts : List Act}
    (h : run (instanceAlloc2 n a b c d p) ops = .ok (li, acts)) :
    ∀ s ∈ allSaps li, ∃ pre post li0 a0, ops = pre ++ post ∧ run (instanceAlloc2 n a b c d p) pre = .ok (li0, a0) ∧ s.id = li0.nextId ∧ Works (current p pre) n s := by
  have key : ∀ (rest : List Op) (pre : List Op) (l0 : Li) (a0 : List Act), run (instanceAlloc2 n a b c d p) pre = .ok (l0, a0) → ∀ l1 a1, run l0 rest = .ok (l1, a1) →
      ∀ s ∈ allSaps l1, s ∈ allSaps l0 ∨ ∃ q post li0 b0, pre ++ rest = q ++ post ∧ run (instanceAlloc2 n a b c d p) q = .ok (li0, b0) ∧ s.id = li0.nextId ∧ Works (current p q) n s := by
    intro rest
    induction rest with
    | nil => intro pre l0 a0 _ l1 a1 h1 s hs; cases h1; exact .inl hs
    | cons o rest ih =>
      intro pre l0 a0 h0 l1 a1 h1 s hs
      unfold run at h1
      cases hst : step l0 o with
      | error e => rw [hst] at h1; cases h1
      | ok r =>
        rw [hst, bind_ok] at h1
        cases hr : run r.1 rest with
        | error e => rw [hr] at h1; cases h1
        | ok q =>
          rw [hr, bind_ok] at h1
          obtain ⟨rfl, rfl⟩ := Prod.mk.inj (Except.ok.inj h1)
          have h0' : run (instanceAlloc2 n a b c d p) (pre ++ [o]) = .ok (r.1, a0 ++ r.2) := by
            clear hr ih hs h1
            generalize instanceAlloc2 n a b c d p = z at h0 ⊢
            induction pre generalizing z a0 with
            | nil => cases h0; simp [run, hst, bind_ok]
            | cons x pre ihp =>
              unfold run at h0
              cases hx : step z x with
              | error e => rw [hx] at h0; cases h0
              | ok y =>
                rw [hx, bind_ok] at h0
                cases hy : run y.1 pre with
                | error e => rw [hy] at h0; cases h0
                | ok w =>
                  rw [hy, bind_ok] at h0
                  obtain ⟨e1, e2⟩ := Prod.mk.inj (Except.ok.inj h0)
                  rw [List.cons_append]
                  unfold run
                  rw [hx, bind_ok, ihp w.2 y.1 (by rw [hy, ← e1]), bind_ok, ← e2, List.append_assoc]
          rcases ih (pre ++ [o]) r.1 _ h0' q.1 q.2 hr s hs with g | ⟨q1, post, li0, b0, g1, g2, g3, g4⟩
          · rcases step_new (acts := r.2) hst s g with g | ⟨g1, -, g2⟩
            · exact .inl g
            · obtain ⟨e1, e2⟩ := run_profile h0
              right
              refine ⟨pre, o :: rest, l0, a0, rfl, h0, g1, ?_⟩
              rw [e1, e2] at g2
              exact g2
          · exact .inr ⟨q1, post, li0, b0, by rw [← g1]; simp, g2, g3, g4⟩
  intro s hs
  rcases key ops [] _ _ rfl li acts h s hs with g | ⟨pre, post, li0, a0, g1, g2, g3, g4⟩
  · simp [allSaps, instanceAlloc2] at g
  · exact ⟨pre, post, li0, a0, by simpa using g1, g2, g3, g4⟩

/-- **C158** no operation (in particular not another profile) changes the parameters of a data link that exists -/
theorem C158_fixed {li li' : Li} (hi : Inv li) {op : Op} {acts : List Act} (h : step li op = .ok (li', acts)) {s s' : Sap} (hs : s ∈ allSaps li) (hs' : s' ∈ allSaps li') (he : s'.id = s.id) : s' = s := by
  have hlt : ∀ x ∈ allSaps li, x.id < li.nextId := by
    intro x hx
    obtain ⟨t, ht, hx⟩ := List.mem_flatMap.1 hx
    exact hi.fresh t ht x hx
  rcases step_new h s' hs' with g | ⟨g, -⟩
  · have hids : ((allSaps li).map (·.id)).Nodup := by
      have := hi.ids
      unfold allSaps
      rw [List.map_flatMap]
      exact this
    have : ∀ l : List Sap, (l.map (·.id)).Nodup → s ∈ l → s' ∈ l → s' = s := by
      intro l
      induction l with
      | nil => intro _ h; cases h
      | cons x l ih =>
        intro hn h1 h2
        rw [List.map_cons, List.nodup_cons] at hn
        rcases List.mem_cons.1 h1 with rfl | h1 <;> rcases List.mem_cons.1 h2 with rfl | h2
        · rfl
        · exact absurd (List.mem_map.2 ⟨s', h2, he⟩) hn.1
        · exact absurd (List.mem_map.2 ⟨s, ‹s ∈ l›, he.symm⟩) hn.1
        · exact ih hn.2 h1 h2
    exact this _ hids hs g
  · have := hlt s hs
    omega

/-- **C158** the profiles offered are complete (there is a window for each of the 64 SAPIs), their windows are from 1 to 127, as modulo 128 numbering demands, frames have up to 260 octets,
timers run, and establishment is tried again at least three times.  On Abis the windows are 2 for RSL (SAPI 0) and 1 for OML and L2ML (GSM 08.56); Ericsson's T200 is 300 ms;
only the satellite profile uses the short address. -/
theorem C158_profiles :
    (∀ q ∈ offered, q.k.length = 64 ∧ (∀ k ∈ q.k, 1 ≤ k ∧ k ≤ 127) ∧ q.n201 = 260 ∧ 3 ≤ q.n200 ∧ q.t200.1 * 1000000 + q.t200.2 ≠ 0 ∧ q.t200.2 < 1000000 ∧
      q.t200.1 * 1000000 + q.t200.2 < q.t203.1 * 1000000 + q.t203.2) ∧
    (∀ q ∈ [profileAbis, profileAbisEricsson], q.k[0]? = some 2 ∧ q.k[62]? = some 1 ∧ q.k[63]? = some 1 ∧ q.shortAddress = false) ∧
    profileAbis.t200 = (0, 240000) ∧ profileAbisEricsson.t200 = (0, 300000) ∧ profileAbisEricsson.n200 = 50 ∧
    (profileIsdn.k = List.replicate 64 7 ∧ profileIsdn.n200 = 3 ∧ profileIsdn.t200 = (1, 0) ∧ profileIsdn.t203 = (10, 0) ∧ profileIsdn.shortAddress = false) ∧
    (profileSat.k = List.replicate 64 15 ∧ profileSat.shortAddress = true) := by
  refine ⟨?_, ?_, rfl, rfl, rfl, ⟨by decide, rfl, rfl, rfl, rfl⟩, by decide, rfl⟩ <;> decide

/-- C51: a TEI management message (TEI 127) other than an identity request, or too short to be one, changes nothing and is not answered -/
theorem C51_other_ignored (li : Li) {addr ctrl payload : List Byte} (ha : IsAddr addr) (hc : IsCtrl ctrl) (ht : teiOf addr = 127) (hm : payload[3]? ≠ some 1) (rc : Int) :
    ∃ e, receive li (addr ++ ctrl ++ payload) rc = .ok ⟨li, e, none, [.pcap false (addr ++ ctrl ++ payload), .freeMsg]⟩ := by
  obtain ⟨l, hp, hl, -⟩ := parse_complete (payload := payload) ha hc
  rw [receive_some li hp (drop_hdr addr ctrl payload) rc]
  unfold receiveBody
  rw [if_pos (by simp [hl, ht])]
  unfold teiReceive
  by_cases h5 : payload.length < 5
  · rw [if_pos h5]; exact ⟨_, rfl⟩
  · rw [if_neg h5, rd_ok (by omega), rd_ok (by omega), bind_ok, bind_ok]
    simp only
    rw [if_neg (by
      rw [List.getElem?_eq_getElem (by omega)] at hm
      simpa using hm)]
    exact ⟨_, rfl⟩

-- an identity denied message
example : IsAddr [0xfc, 0xff] ∧ IsCtrl [0x03] ∧ teiOf [0xfc, 0xff] = 127 ∧ [0x0f, 0x00, 0x00, 0x03, (0x07 : Byte)][3]? ≠ some 1 :=
  ⟨.long (by decide), .u (by decide), by decide, by decide⟩

/-- C50: a frame of unknown format is not sent but freed -/
theorem send_bad_format (li : Li) (l : Lctx) (payload : List Byte) (headroom : Nat) (hf : l.format ≠ .i ∧ l.format ≠ .s ∧ l.format ≠ .u) :
    sendFrame li l payload headroom = .ok (-EINVAL, [.freeMsg]) := by
  have : ctrlField l = none := by
    unfold ctrlField
    cases h : l.format with
    | i => exact absurd h hf.1
    | s => exact absurd h hf.2.1
    | u => exact absurd h hf.2.2
    | _ => rfl
  unfold sendFrame
  rw [this]

/-! ### the hypotheses are met -/

/-- a profile is replaced while data links exist; the older one keeps its window -/
example : (match run (instanceAlloc2 true 1 2 3 4 profileAbis) [.sapStart 3 0 0, .setProfile profileSat, .sapStart 3 62 0] with
    | .ok (li, _) => decide ((allSaps li).map (fun s => (s.sapi, s.k, s.t200)) = [(62, 15, (2, 400000)), (0, 2, (0, 240000))])
    | .error _ => false) = true := by decide +kernel

end Verif.Lapd
