import Verif.Props.IpaProxyCfg
import Verif.Spec.IpaProxyNet
/-!
# C165: where the proxy listens, and where it connects to
-/
set_option maxRecDepth 10000
namespace Verif.IpaProxy.Net

/-! ### the state without addresses -/

/-- the operation without addresses -/
def NOp.op : NOp → Op
  | .instAdd n b _ _ _ => .instAdd n b
  | .instDel n => .instDel n
  | .routeAdd sn s dn d o => .routeAdd sn s dn d o
  | .routeDel sn s dn d => .routeDel sn s dn d
  | .accept r => .accept r
  | .srcClosed c => .srcClosed c

theorem step_w {nw nw' : NW} {op : NOp} (h : step nw op = .ok nw') : IpaProxy.step nw.w op.op = .ok nw'.w := by
  cases op with
  | instAdd n b a v p =>
    have h := Except.ok.inj h
    subst h
    simp only [NOp.op, IpaProxy.step, instAdd]
    by_cases hc : nw.w.insts.any (fun i => nameEq i.name n) = true
    · simp [hc, IpaProxy.instAdd]
    · simp only [hc, Bool.false_eq_true, if_false]
      rw [if_neg (by cases v <;> simp [inetAton])]
  | instDel n =>
    simp only [step] at h
    simp only [NOp.op, IpaProxy.step]
    cases hd : IpaProxy.instDel nw.w n with
    | error e => rw [hd] at h; cases h
    | ok q => rw [hd] at h; have h := Except.ok.inj h; subst h; rfl
  | routeAdd sn s dn d o =>
    have h := Except.ok.inj h
    subst h
    simp only [NOp.op, IpaProxy.step, routeAdd]
    split
    · rfl
    · split
      · rfl
      · split <;> rfl
  | routeDel sn s dn d =>
    simp only [step] at h
    simp only [NOp.op, IpaProxy.step]
    cases hd : IpaProxy.routeDel nw.w sn s dn d with
    | error e => rw [hd] at h; cases h
    | ok q => rw [hd] at h; have h := Except.ok.inj h; subst h; rfl
  | accept r =>
    simp only [step, accept] at h
    simp only [NOp.op, IpaProxy.step]
    cases h1 : routeSh nw.w r with
    | error e => rw [h1] at h; cases h
    | ok x =>
      cases h2 : IpaProxy.accept nw.w r with
      | error e => rw [h1, h2] at h; cases h
      | ok w' => rw [h1, h2] at h; have h := Except.ok.inj h; subst h; rfl
  | srcClosed c => have h := Except.ok.inj h; subst h; rfl

theorem run_append {nw : NW} {a b : List NOp} {nw' : NW} (h : run nw (a ++ b) = .ok nw') : ∃ m, run nw a = .ok m ∧ run m b = .ok nw' := by
  induction a generalizing nw with
  | nil => exact ⟨nw, rfl, h⟩
  | cons op a ih =>
    simp only [List.cons_append, run] at h ⊢
    cases hs : step nw op with
    | error e => rw [hs] at h; cases h
    | ok m => rw [hs, bind_ok] at h; rw [bind_ok]; exact ih h

theorem run_w {nw nw' : NW} {ops : List NOp} (h : run nw ops = .ok nw') : IpaProxy.run nw.w (ops.map NOp.op) = .ok nw'.w := by
  induction ops generalizing nw with
  | nil => have h := Except.ok.inj h; subst h; rfl
  | cons op ops ih =>
    simp only [run] at h
    cases hs : step nw op with
    | error e => rw [hs] at h; cases h
    | ok m =>
      rw [hs, bind_ok] at h
      simp only [List.map_cons, IpaProxy.run, step_w hs, bind_ok]
      exact ih h

theorem run_inv {ops : List NOp} {nw : NW} (h : run init ops = .ok nw) : InvR nw.w :=
  (IpaProxy.run_inv init_inv.1 init_inv.2 (run_w h)).1

/-! ### instances -/

theorem refInst_mem {w : W} {k : Nat} {v : Int} {i : Inst} (h : i ∈ (refInst w k v).insts) : ∃ j ∈ w.insts, j.id = i.id ∧ j.name = i.name ∧ j.bind = i.bind := by
  simp only [refInst, List.mem_map] at h
  obtain ⟨j, hj, rfl⟩ := h
  refine ⟨j, hj, ?_⟩
  split <;> exact ⟨rfl, rfl, rfl⟩

/-- every instance was there before, or is the new one -/
theorem step_insts {w w' : W} {op : Op} (h : IpaProxy.step w op = .ok w') {i : Inst} (hi : i ∈ w'.insts) :
    (∃ j ∈ w.insts, j.id = i.id ∧ j.name = i.name ∧ j.bind = i.bind) ∨
    ∃ n b, op = .instAdd n b ∧ i.id = w.next ∧ i.name = n.take 15 ∧ i.bind = b ∧ ∀ j ∈ w.insts, j.name.take 16 ≠ n.take 16 := by
  have same : ∀ {u : W}, u.insts = w.insts → i ∈ u.insts → ∃ j ∈ w.insts, j.id = i.id ∧ j.name = i.name ∧ j.bind = i.bind :=
    fun he hm => ⟨i, he ▸ hm, rfl, rfl, rfl⟩
  cases op with
  | instAdd n b =>
    have h := Except.ok.inj h
    subst h
    simp only [IpaProxy.instAdd] at hi
    split at hi
    · exact .inl (same rfl hi)
    · rename_i hc
      rcases List.mem_append.1 hi with h1 | h1
      · exact .inl (same rfl h1)
      · have : i = ⟨w.next, n.take (NAME - 1), b, 0⟩ := by simpa using h1
        subst this
        refine .inr ⟨n, b, rfl, rfl, rfl, rfl, ?_⟩
        intro j hj he
        apply hc
        rw [List.any_eq_true]
        exact ⟨j, hj, by simp only [nameEq, NAME]; exact beq_iff_eq.2 he⟩
  | instDel n =>
    simp only [IpaProxy.step] at h
    cases hd : IpaProxy.instDel w n with
    | error e => rw [hd] at h; cases h
    | ok q =>
      rw [hd] at h
      have h := Except.ok.inj h
      subst h
      simp only [IpaProxy.instDel] at hd
      split at hd
      · cases hd
      · split at hd
        · have := Except.ok.inj hd; subst this; exact .inl (same rfl hi)
        · have := Except.ok.inj hd; subst this
          exact .inl (same rfl (List.mem_filter.1 hi).1)
  | routeAdd sn s dn d o =>
    have h := Except.ok.inj h
    subst h
    have fin : ∀ {u : W} {a b : Nat} {s d : Byte} {x : Sh} {rid : Nat}, u.insts = w.insts → i ∈ (addFinish u a b s d x rid).insts →
        ∃ j ∈ w.insts, j.id = i.id ∧ j.name = i.name ∧ j.bind = i.bind := by
      intro u a b s d x rid he hm
      simp only [addFinish] at hm
      obtain ⟨j, hj, e1⟩ := refInst_mem hm
      obtain ⟨k, hk, e2⟩ := refInst_mem hj
      have : k ∈ w.insts := he ▸ hk
      exact ⟨k, this, e2.1.trans e1.1, e2.2.1.trans e1.2.1, e2.2.2.trans e1.2.2⟩
    simp only [IpaProxy.routeAdd] at hi
    split at hi
    · exact .inl (same rfl hi)
    · split at hi
      · split at hi
        · exact .inl (same rfl hi)
        · exact .inl (fin (by rfl) hi)
      · split at hi
        · exact .inl (fin (by rfl) hi)
        · exact .inl (same rfl hi)
  | routeDel sn s dn d =>
    simp only [IpaProxy.step] at h
    cases hd : IpaProxy.routeDel w sn s dn d with
    | error e => rw [hd] at h; cases h
    | ok q =>
      rw [hd] at h
      have h := Except.ok.inj h
      subst h
      simp only [IpaProxy.routeDel] at hd
      split at hd
      · have := Except.ok.inj hd; subst this; exact .inl (same rfl hi)
      · split at hd
        · have := Except.ok.inj hd; subst this; exact .inl (same rfl hi)
        · split at hd
          · cases hd
          · have := Except.ok.inj hd; subst this
            obtain ⟨j, hj, e1⟩ := refInst_mem hi
            obtain ⟨k, hk, e2⟩ := refInst_mem hj
            exact .inl ⟨k, hk, e2.1.trans e1.1, e2.2.1.trans e1.2.1, e2.2.2.trans e1.2.2⟩
  | accept r =>
    simp only [IpaProxy.step, IpaProxy.accept] at h
    cases h1 : routeSh w r with
    | error e => rw [h1] at h; cases h
    | ok x => rw [h1] at h; have h := Except.ok.inj h; subst h; exact .inl (same rfl hi)
  | srcClosed c => have h := Except.ok.inj h; subst h; exact .inl (same rfl hi)

theorem CreatedBy.snoc {ops : List NOp} {i j : Inst} {addr : List Byte} {port : Int} (h : CreatedBy ops j addr port) (e : j.id = i.id ∧ j.name = i.name ∧ j.bind = i.bind)
    (op : NOp) : CreatedBy (ops ++ [op]) i addr port := by
  obtain ⟨pre, post, name, valid, nw, h1, h2, h3, h4, h5⟩ := h
  refine ⟨pre, post ++ [op], name, valid, nw, ?_, h2, e.1 ▸ h3, e.2.1 ▸ h4, h5⟩
  rw [h1, ← e.2.2]; simp

theorem snoc_ind {P : List NOp → Prop} (h0 : P []) (hs : ∀ l x, P l → P (l ++ [x])) (l : List NOp) : P l := by
  have : ∀ r : List NOp, P r.reverse := by
    intro r
    induction r with
    | nil => exact h0
    | cons x r ih => rw [List.reverse_cons]; exact hs _ _ ih
  have h := this l.reverse
  rwa [List.reverse_reverse] at h

/-- the addresses of other identities are not changed -/
theorem step_net {nw nw' : NW} {op : NOp} (h : step nw op = .ok nw') {k : Nat} (hk : k ≠ nw.w.next) : nw'.net k = nw.net k := by
  cases op with
  | instAdd n b a v p =>
    have h := Except.ok.inj h
    subst h
    simp only [instAdd]
    split
    · rfl
    · split
      · rfl
      · simp only [if_neg hk]
  | instDel n =>
    simp only [step] at h
    cases hd : IpaProxy.instDel nw.w n with
    | error e => rw [hd] at h; cases h
    | ok q => rw [hd] at h; have h := Except.ok.inj h; subst h; rfl
  | routeAdd sn s dn d o =>
    have h := Except.ok.inj h
    subst h
    simp only [routeAdd]
    split
    · rfl
    · split
      · rfl
      · split <;> rfl
  | routeDel sn s dn d =>
    simp only [step] at h
    cases hd : IpaProxy.routeDel nw.w sn s dn d with
    | error e => rw [hd] at h; cases h
    | ok q => rw [hd] at h; have h := Except.ok.inj h; subst h; rfl
  | accept r =>
    simp only [step, accept] at h
    cases h1 : routeSh nw.w r with
    | error e => rw [h1] at h; cases h
    | ok x =>
      cases h2 : IpaProxy.accept nw.w r with
      | error e => rw [h1, h2] at h; cases h
      | ok w' => rw [h1, h2] at h; have h := Except.ok.inj h; subst h; rfl
  | srcClosed c => have h := Except.ok.inj h; subst h; rfl

/-- C165: in every history, every instance was created by a command, and has the address given with it and the port *modulo 65536* -/
theorem C165_instance (ops : List NOp) {nw : NW} (h : run init ops = .ok nw) (i : Inst) (hi : i ∈ nw.w.insts) :
    ∃ addr port, CreatedBy ops i addr port ∧ nw.net i.id = ⟨addr, (port % 65536).toNat⟩ := by
  induction ops using snoc_ind generalizing nw i with
  | h0 => have h := Except.ok.inj h; subst h; simp [init, IpaProxy.init] at hi
  | hs ops op ih =>
    obtain ⟨m, hm, h1⟩ := run_append h
    simp only [run] at h1
    cases hs : step m op with
    | error e => rw [hs] at h1; cases h1
    | ok m' =>
      rw [hs, bind_ok] at h1
      have h1 := Except.ok.inj h1
      subst h1
      have hI := run_inv hm
      rcases step_insts (step_w hs) hi with ⟨j, hj, e⟩ | ⟨n, b, ho, e1, e2, e3, e4⟩
      · obtain ⟨addr, port, hc, hn⟩ := ih hm j hj
        refine ⟨addr, port, hc.snoc e op, ?_⟩
        rw [step_net hs (by have := hI.li j hj; omega), ← e.1, hn]
      · cases op with
        | instAdd n' b' a v p =>
          have ho : Op.instAdd n' b' = .instAdd n b := ho
          cases ho
          refine ⟨a, p, ⟨ops, [], n, v, m, by rw [e3], hm, e1, e2, e4⟩, ?_⟩
          have hs := Except.ok.inj hs
          subst hs
          have hc : ¬ m.w.insts.any (fun i => nameEq i.name n) = true := by
            rw [List.any_eq_true]
            rintro ⟨j, hj, he⟩
            exact e4 j hj (by simpa [nameEq, NAME] using he)
          simp only [instAdd, if_neg hc]
          rw [if_neg (by cases v <;> simp [inetAton])]
          simp [e1]
        | instDel n' => cases ho
        | routeAdd sn s dn d o => cases ho
        | routeDel sn s dn d => cases ho
        | accept r => cases ho
        | srcClosed c => cases ho

/-! ### sockets -/

theorem args_mem {w : W} {sn dn : List Byte} {s d : Nat} {a b : Inst} (h : args w sn s dn d = some (a, b)) : a ∈ w.insts ∧ b ∈ w.insts := by
  have hl := lookup_mem w sn dn
  unfold args at h
  split at h
  · rename_i a' b' he
    split at h
    · cases h
      rw [he] at hl
      exact ⟨hl.1 _ rfl, hl.2 _ rfl⟩
    · cases h
  · cases h

theorem asGiven_iff (s : Sock) (addr : List Byte) (port : Int) (hp : s.port = (port % 65536).toNat) : AsGiven s addr port ↔ s.addr = addr ∧ IsPort port := by
  simp only [AsGiven, IsPort, hp]
  constructor
  · rintro ⟨h1, h2⟩; exact ⟨h1, by omega⟩
  · rintro ⟨h1, h2⟩; exact ⟨h1, by omega⟩

/-- C165: with the first route between two instances a socket starts to listen, with other routes none; it listens at the port of the source
instance, but at 0.0.0.0: it is as given exactly if that address was given, and a port number -/
theorem C165_listen_partial (ops : List NOp) {nw : NW} (h : run init ops = .ok nw) (sn dn : List Byte) (s d : Nat) (o : Bool) :
    (args nw.w sn s dn d = none → (routeAdd nw sn s dn d o).1.lst = nw.lst) ∧
    ∀ a b, args nw.w sn s dn d = some (a, b) →
      ((firstRoute nw.w a.id b.id).isSome = true ∨ o = false → (routeAdd nw sn s dn d o).1.lst = nw.lst) ∧
      (firstRoute nw.w a.id b.id = none → o = true →
        ∃ addr port sock, CreatedBy ops a addr port ∧ (routeAdd nw sn s dn d o).1.lst = nw.lst ++ [(nw.w.next, sock)] ∧
          sock = ⟨everywhere, (port % 65536).toNat⟩ ∧ (AsGiven sock addr port ↔ addr = everywhere ∧ IsPort port)) := by
  have hany : everywhere = anyAddr := by decide
  rw [hany]
  refine ⟨fun ha => by simp only [routeAdd, ha], fun a b ha => ⟨fun hf => ?_, fun hf ho => ?_⟩⟩
  · simp only [routeAdd, ha]
    cases hq : firstRoute nw.w a.id b.id with
    | some q => rfl
    | none =>
      rw [hq] at hf
      have ho : o = false := by simpa using hf
      subst ho; rfl
  · obtain ⟨addr, port, hc, hn⟩ := C165_instance ops h a (args_mem ha).1
    refine ⟨addr, port, ⟨anyAddr, (port % 65536).toNat⟩, hc, ?_, rfl, ?_⟩
    · simp only [routeAdd, ha, hf, ho, if_true, hn]
    · rw [asGiven_iff _ _ _ rfl]
      exact ⟨fun h => ⟨h.1.symm, h.2⟩, fun h => ⟨h.1.symm, h.2⟩⟩

/-- C165: for a new connection, a client connects to the address given for the destination instance of the route, at the port given,
provided that this is a port number -/
theorem C165_connect (ops : List NOp) {nw nw' : NW} (h : run init ops = .ok nw) (rid : Nat) (ha : accept nw rid = .ok nw') :
    ∃ r x i addr port sock, r ∈ nw.w.routes ∧ r.id = rid ∧ sh? nw.w r.sh = some x ∧ i ∈ nw.w.insts ∧ i.id = x.dst ∧ CreatedBy ops i addr port ∧
      nw'.cli = nw.cli ++ [(nw.w.next, sock)] ∧ sock.addr = addr ∧ (AsGiven sock addr port ↔ IsPort port) := by
  have hI := run_inv h
  simp only [accept] at ha
  cases h1 : routeSh nw.w rid with
  | error e => rw [h1] at ha; cases ha
  | ok x =>
    cases h2 : IpaProxy.accept nw.w rid with
    | error e => rw [h1, h2] at ha; cases ha
    | ok w' =>
      rw [h1, h2] at ha
      have ha := Except.ok.inj ha
      subst ha
      unfold routeSh at h1
      split at h1
      · rename_i r hr
        unfold shGet at h1
        split at h1
        · rename_i y hy
          have h1 := Except.ok.inj h1
          subst h1
          obtain ⟨i, hi, hid⟩ := (hI.ex y (sh_some hy).1).2
          obtain ⟨addr, port, hc, hn⟩ := C165_instance ops h i hi
          have hrid : r.id = rid := by simpa using List.find?_some hr
          refine ⟨r, y, i, addr, port, nw.net y.dst, List.mem_of_find?_eq_some hr, hrid, hy, hi, hid, hc, rfl, ?_, ?_⟩
          · rw [← hid, hn]
          · rw [← hid, hn, asGiven_iff _ _ _ rfl]
            simp
        · cases h1
      · cases h1

/-- C165 is violated: strings that are no address are accepted -/
theorem C165_invalid_violated (nw : NW) (name : List Byte) (b : Bool) (addr : List Byte) (port : Int) (hn : ∀ i ∈ nw.w.insts, i.name.take 16 ≠ name.take 16) :
    (instAdd nw name b addr false port).2 = .success := by
  have hc : ¬ nw.w.insts.any (fun i => nameEq i.name name) = true := by
    rw [List.any_eq_true]
    rintro ⟨j, hj, he⟩
    exact hn j hj (by simpa [nameEq, NAME] using he)
  simp only [instAdd, if_neg hc]
  rw [if_neg (by simp [inetAton])]

/-! ### C164: the addresses in the configuration -/

theorem step_lift {nw : NW} {op : NOp} {w' : W} (h : IpaProxy.step nw.w op.op = .ok w') : ∃ nw', step nw op = .ok nw' ∧ nw'.w = w' := by
  have key : ∀ {nw'}, step nw op = .ok nw' → nw'.w = w' := fun h2 => Except.ok.inj ((step_w h2).symm.trans h)
  have : ∃ nw', step nw op = .ok nw' := by
    cases op with
    | instAdd n b a v p => exact ⟨_, rfl⟩
    | instDel n =>
      simp only [NOp.op, IpaProxy.step] at h
      simp only [step]
      cases hd : IpaProxy.instDel nw.w n with
      | error e => rw [hd] at h; cases h
      | ok q => exact ⟨_, rfl⟩
    | routeAdd sn s dn d o => exact ⟨_, rfl⟩
    | routeDel sn s dn d =>
      simp only [NOp.op, IpaProxy.step] at h
      simp only [step]
      cases hd : IpaProxy.routeDel nw.w sn s dn d with
      | error e => rw [hd] at h; cases h
      | ok q => exact ⟨_, rfl⟩
    | accept r =>
      simp only [NOp.op, IpaProxy.step] at h
      simp only [step, accept, h, bind_ok]
      simp only [IpaProxy.accept] at h
      cases h1 : routeSh nw.w r with
      | error e => rw [h1] at h; cases h
      | ok x => exact ⟨_, rfl⟩
    | srcClosed c => exact ⟨_, rfl⟩
  obtain ⟨nw', h2⟩ := this
  exact ⟨nw', h2, key h2⟩

theorem run_lift {nw : NW} {ops : List NOp} {w' : W} (h : IpaProxy.run nw.w (ops.map NOp.op) = .ok w') : ∃ nw', run nw ops = .ok nw' ∧ nw'.w = w' := by
  induction ops generalizing nw with
  | nil => exact ⟨nw, rfl, Except.ok.inj h⟩
  | cons op ops ih =>
    simp only [List.map_cons, IpaProxy.run] at h
    cases hs : IpaProxy.step nw.w op.op with
    | error e => rw [hs] at h; cases h
    | ok m =>
      rw [hs, bind_ok] at h
      obtain ⟨m', h1, rfl⟩ := step_lift hs
      simp only [run, h1, bind_ok]
      exact ih h

theorem lineOps_op {valid : List Byte → Bool} {nw : NW} {ls : List Line} (h : cfgWrite nw.w = .ok ls) : (lineOps valid nw ls).map NOp.op = ls.map Line.op := by
  simp only [cfgWrite] at h
  cases hr : routeLines nw.w nw.w.routes with
  | error e => rw [hr] at h; cases h
  | ok rs =>
    rw [hr, bind_ok] at h
    have h := Except.ok.inj h
    subst h
    have hroute : ∀ (q : List Route) (rs : List Line), routeLines nw.w q = .ok rs →
        (rs.filterMap routeOp).map NOp.op = rs.map Line.op := by
      intro q
      induction q with
      | nil => intro rs h; have h := Except.ok.inj h; subst h; rfl
      | cons r q ih =>
        intro rs h
        simp only [routeLines] at h
        cases h1 : routeLine nw.w r with
        | error e => rw [h1] at h; cases h
        | ok l =>
          cases h2 : routeLines nw.w q with
          | error e => rw [h1, h2] at h; cases h
          | ok ls' =>
            rw [h1, h2] at h
            have h := Except.ok.inj h
            subst h
            have hl : ∃ sn s dn d, l = .route sn s dn d := by
              simp only [routeLine] at h1
              cases h3 : shGet nw.w r.sh with
              | error e => rw [h3] at h1; cases h1
              | ok x =>
                cases h4 : instName nw.w x.src with
                | error e => rw [h3, bind_ok, h4] at h1; cases h1
                | ok a =>
                  cases h5 : instName nw.w x.dst with
                  | error e => rw [h3, bind_ok, h4, bind_ok, h5] at h1; cases h1
                  | ok b =>
                    rw [h3, bind_ok, h4, bind_ok, h5, bind_ok] at h1
                    exact ⟨_, _, _, _, (Except.ok.inj h1).symm⟩
            obtain ⟨sn, s, dn, d, rfl⟩ := hl
            rw [List.map_cons, ← ih ls' h2]
            rfl
    simp only [lineOps, List.map_append, List.filterMap_append]
    have e1 : (nw.w.insts.map (fun i => Line.inst i.name i.bind)).filterMap
        routeOp = [] := by
      induction nw.w.insts with
      | nil => rfl
      | cons i is ih => exact ih
    rw [e1, List.map_nil, List.nil_append, hroute _ _ hr]
    congr 1
    rw [List.map_map, List.map_map]
    rfl

/-- **C164** (addresses) Under the same conditions: reading the configuration that was written gives the same instances with the same addresses and
ports. -/
theorem C164_addresses_partial (ops : List NOp) (ha : AdmRun IpaProxy.init (ops.map NOp.op)) (hn : ShortNames (ops.map NOp.op)) (valid : List Byte → Bool) :
    ∃ nw ls nw', run init ops = .ok nw ∧ cfgWrite nw.w = .ok ls ∧ run init (lineOps valid nw ls) = .ok nw' ∧ cfgWrite nw'.w = .ok ls ∧
      nw'.w.insts.map (fun i => (i.name, i.bind, nw'.net i.id)) = nw.w.insts.map (fun i => (i.name, i.bind, nw.net i.id)) := by
  obtain ⟨w, ls, w', h1, h2, h3, h4, h5, -, -⟩ := C164_roundtrip_partial (ops.map NOp.op) ha hn
  obtain ⟨nw, g1, rfl⟩ := run_lift (nw := init) h1
  rw [← lineOps_op (valid := valid) h2] at h3
  obtain ⟨nw', g2, rfl⟩ := run_lift (nw := init) h3
  refine ⟨nw, ls, nw', g1, h2, g2, h4, ?_⟩
  have hg : Good nw.w := run_good init_good hn h1
  apply List.ext_getElem?
  intro k
  rw [List.getElem?_map, List.getElem?_map]
  have h5k := congrArg (fun l => l[k]?) h5
  simp only [List.getElem?_map] at h5k
  cases hi : nw'.w.insts[k]? with
  | none =>
    rw [hi] at h5k
    cases hj : nw.w.insts[k]? with
    | none => rfl
    | some j => rw [hj] at h5k; cases h5k
  | some i =>
    rw [hi] at h5k
    cases hj : nw.w.insts[k]? with
    | none => rw [hj] at h5k; cases h5k
    | some j =>
      rw [hj] at h5k
      simp only [Option.map_some, Option.some.injEq, Prod.mk.injEq] at h5k
      have hjm := List.mem_of_getElem? hj
      obtain ⟨addr, port, ⟨pre, post, name, v, m, e1, -, -, e4, -⟩, e⟩ := C165_instance _ g2 i (List.mem_of_getElem? hi)
      have hm : NOp.instAdd name i.bind addr v port ∈ lineOps valid nw ls := by rw [e1]; simp
      simp only [lineOps, List.mem_append] at hm
      rcases hm with hm | hm
      · simp only [List.mem_map] at hm
        obtain ⟨q, hq, he⟩ := hm
        obtain ⟨en, -, ea, -, ep⟩ := NOp.instAdd.inj he
        subst en; subst ea; subst ep
        have hlen := hg.len q hq
        rw [List.take_of_length_le hlen] at e4
        have : q = j := map_inj hg.nmn hq hjm (e4.symm.trans h5k.1)
        subst this
        obtain ⟨addr2, port2, -, e5⟩ := C165_instance _ g1 q hq
        have hp : (nw.net q.id).port < 65536 := by rw [e5]; show (port2 % 65536).toNat < 65536; omega
        have : nw'.net i.id = nw.net q.id := by
          rw [e]
          have hpp : ((nw.net q.id).port : Int) % 65536 = (nw.net q.id).port := by omega
          rw [hpp]; rfl
        simp only [Option.map_some, h5k.1, h5k.2, this]
      · simp only [List.mem_filterMap] at hm
        obtain ⟨l, -, he⟩ := hm
        cases l with
        | inst a b => cases he
        | route a b c d => cases he

/-- "127.0.0.1", "10.0.0.7" -/
def lo : List Byte := [0x31, 0x32, 0x37, 0x2e, 0x30, 0x2e, 0x30, 0x2e, 0x31]
def ten : List Byte := [0x31, 0x30, 0x2e, 0x30, 0x2e, 0x30, 0x2e, 0x37]

def exOps : List NOp := [.instAdd nA true lo true 3002, .instAdd nB false ten true 65537, .routeAdd nA 1 nB 1 true, .accept 2]

/-- a history that meets the conditions of C164 -/
def netHist : List NOp :=
  [.instAdd nA true lo true 3002, .instAdd nB false ten true 65537, .routeAdd nA 0 nB 0 true, .routeAdd nA 255 nB 255 true, .accept 2, .routeAdd nA 7 nB 7 true,
    .routeDel nA 255 nB 255]

example : AdmRun IpaProxy.init (netHist.map NOp.op) ∧ ShortNames (netHist.map NOp.op) ∧
    (run init netHist).toOption.map (fun nw => nw.w.insts.map (fun i => (i.name, nw.net i.id))) = some [(nA, ⟨lo, 3002⟩), (nB, ⟨ten, 1⟩)] :=
  ⟨hist_adm, (by
    intro n b h
    change _ ∈ hist at h
    simp only [hist, List.mem_cons, Op.instAdd.injEq, List.not_mem_nil, or_false, reduceCtorEq, false_or] at h
    rcases h with ⟨rfl, _⟩ | ⟨rfl, _⟩ <;> decide), by decide +kernel⟩

/-- C165 is violated: the proxy listens at 0.0.0.0 instead of the address given, and port 65537 becomes port 1 -/
theorem C165_address_violated : (run init exOps).toOption.map (fun nw => (nw.lst, nw.cli)) = some ([(2, ⟨everywhere, 3002⟩)], [(4, ⟨ten, 1⟩)]) := by
  decide +kernel

end Verif.IpaProxy.Net
