import Verif.Proof.E1Step
/-! Proof infrastructure: every admissible event succeeds and has one of the effects `Tr`. -/
set_option maxRecDepth 10000
namespace Verif.E1

/-- any line has a reference -/
theorem total_pos {st : St} (h : Inv st) {l : Nat} {x : Line} (hx : st.line l = some x) : 0 < total x.uses :=
  (h.uses l x hx).2.1

theorem step_config {st : St} (h : Inv st) {r : TsRef} (hr : At st r) {ty : TsType}
    (ha : HasType st r ty ∨ linksOf (st.ts r).u = []) (op : Op)
    (he : enters st op = []) (hc : ∀ l u, credit st op l u = 0) (hs : ∀ k, sentTo k op = [])
    (f : M (St × Int × List Act))
    (h1 : sameType (st.ts r) ty (some r.1) = true → f = .ok (st, 0, []))
    (h2 : sameType (st.ts r) ty (some r.1) = false → linksOf (st.ts r).u = [] →
      ∃ t, f = .ok (setTs st r t, 0, (rawq (st.ts r).u).map .free) ∧ TsOk r.1 t ∧ linksOf t.u = [] ∧ rawq t.u = []) :
    ∃ st' acts, dropRc f = .ok (st', acts) ∧ Tr st op st' acts := by
  have hto := h.ts r hr
  by_cases hty : HasType st r ty
  · rw [h1 (sameType_true hty hto.line)]
    exact ⟨st, [], rfl, tr_nop st op he hc hs⟩
  · have hl : linksOf (st.ts r).u = [] := by
      rcases ha with ha | ha
      · exact absurd ha hty
      · exact ha
    obtain ⟨t, e, k1, k2, k3⟩ := h2 (sameType_false hty) hl
    rw [e]
    exact ⟨_, _, rfl, tr_config h op r hr t k1 hl k2 k3 he hc hs⟩

theorem step_tr {st : St} (h : Inv st) {op : Op} (ha : Adm st op) :
    ∃ st' acts, step st op = .ok (st', acts) ∧ Tr st op st' acts := by
  cases op with
  | driverRegister d =>
    exact ⟨_, _, rfl, Tr.pure st _ _ [] (by simp [enters, disposed]) (by simp [credit]) (by simp [sentTo]) calm_nil⟩
  | lineFind nr =>
    have hn : Tr st (.lineFind nr) st [] := tr_nop st _ rfl (by simp [credit]) (by simp [sentTo])
    simp only [step, lineFind]
    rcases lineFindIn_spec st nr st.reg h.regLive with ⟨h1, _⟩ | ⟨l, x, _, _, _, h1⟩
    · rw [h1]; exact ⟨_, _, rfl, hn⟩
    · rw [h1]; exact ⟨_, _, rfl, hn⟩
  | lineCreate nr name =>
    simp only [step]
    have key : (∃ e : lineCreate st nr name = .ok (st, none), True) ∨
        ∃ d, (∀ l x, l ∈ st.reg → st.line l = some x → x.num ≠ nr) ∧ driverFind st name = some d ∧
          d.createOk = true := by
      unfold lineCreate lineFind
      rcases lineFindIn_spec st nr st.reg h.regLive with ⟨h1, hnone⟩ | ⟨l, x, _, _, _, h1⟩
      · rw [h1, bind_ok]
        simp only
        cases hd : driverFind st name with
        | none => exact .inl ⟨rfl, trivial⟩
        | some d =>
          simp only
          by_cases hok : d.createOk = true
          · exact .inr ⟨d, fun l x hl hx => hnone l hl x hx, rfl, hok⟩
          · rw [if_neg hok]; exact .inl ⟨rfl, trivial⟩
      · rw [h1, bind_ok]; exact .inl ⟨rfl, trivial⟩
    rcases key with ⟨e, _⟩ | ⟨d, hnone, hd, hok⟩
    · rw [e]
      refine ⟨_, _, rfl, tr_nop st _ rfl ?_ (by simp [sentTo])⟩
      intro l u
      simp only [credit, e]
    · have hf : lineFind st nr = .ok none := by
        unfold lineFind
        rcases lineFindIn_spec st nr st.reg h.regLive with ⟨h1, _⟩ | ⟨l, x, hm, hx, hn, h1⟩
        · exact h1
        · exact absurd hn (hnone l x hm hx)
      have heq : lineCreate st nr name = .ok ({ st with
          nextLine := st.nextLine + 1,
          line := fun l' => if l' = st.nextLine then
            some { num := nr, driver := d, ops := none, uses := [(uCtor, 1)], pcapFd := -1 }
            else st.line l',
          ts := fun r => if r.1 = st.nextLine then freshTs st.nextLine else st.ts r,
          reg := st.reg ++ [st.nextLine] }, some st.nextLine) := by
        unfold lineCreate
        rw [hf, bind_ok]
        simp only [hd, hok, if_true]
      rw [heq]
      refine ⟨_, _, rfl, Tr.create st nr name d hnone hd hok ?_⟩
      intro l u
      simp only [credit, heq]
  | lineClone l u =>
    obtain ⟨⟨x, hx⟩, hu, ht⟩ := ha
    simp only [step, lineClone, lineAt_ok hx, bind_ok]
    exact ⟨_, _, rfl, Tr.clone st l u x hx hu ht⟩
  | lineGet l u =>
    obtain ⟨⟨x, hx⟩, hu⟩ := ha
    have hp := total_pos h hx
    simp only [step, useChange_keep hx (u := u) (d := 1) (by omega)]
    refine ⟨_, _, rfl, Tr.use st _ l u 1 x hx (.inl ⟨rfl, rfl⟩) hu ?_ (by omega)⟩
    have := cnt_nonneg (h.uses l x hx).1 u
    omega
  | linePut l u =>
    obtain ⟨hu, x, hx, hcnt⟩ := ha
    have hp := total_pos h hx
    simp only [step]
    by_cases ht : total x.uses = 1
    · have htr := Tr.free st l u x hx hu hcnt ht
      have hi := inv_tr h htr
      rw [useChange_free hx (by omega)]
      · exact ⟨_, _, rfl, htr⟩
      · apply no_timer h hx
        intro k y hy he
        have := (hi.link k y hy).1.1
        obtain ⟨z, hz⟩ := this
        simp [setLine, he] at hz
    · rw [useChange_keep hx (by omega)]
      exact ⟨_, _, rfl, Tr.use st _ l u (-1) x hx (.inr ⟨rfl, rfl⟩) hu (by omega) (by omega)⟩
  | bindOps l ops =>
    obtain ⟨x, hx⟩ := ha
    simp only [step, bindOps, lineAt_ok hx, bind_ok]
    exact ⟨_, _, rfl, Tr.bind st l x ops hx⟩
  | configTrau r l cb =>
    obtain ⟨hr, rfl, hty⟩ := ha
    have hto := h.ts r hr
    simp only [step]
    refine step_config h hr hty _ rfl (by simp [credit]) (by simp [sentTo]) _ ?_ ?_
    · intro e; simp only [configTrau, tsAt_ok hr, bind_ok, e, if_true]
    · intro e hl
      obtain ⟨t', rc, acts, c1, c2, c3, c4, c5, c6, c7, c8⟩ := cleanup_ok hto
      have hnp := not_pending hto hl
      rw [← c3] at hnp
      simp only [configTrau, tsAt_ok hr, bind_ok, e, c1, overlay, if_neg hnp, c5]
      exact ⟨_, rfl, ⟨rfl, by simp, by simp [IsSign], by simp,
        by intro cb m hm; cases hm; exact muxOk_init, by intro _ _ _; exact dmxOk_init _⟩, rfl, rfl⟩
  | configI460 r l j =>
    obtain ⟨hr, rfl, hty⟩ := ha
    have hto := h.ts r hr
    simp only [step]
    refine step_config h hr hty _ rfl (by simp [credit]) (by simp [sentTo]) _ ?_ ?_
    · intro e; simp only [configI460, tsAt_ok hr, bind_ok, e, if_true]
    · intro e hl
      obtain ⟨t', rc, acts, c1, c2, c3, c4, c5, c6, c7, c8⟩ := cleanup_ok hto
      have hnp := not_pending hto hl
      rw [← c3] at hnp
      simp only [configI460, tsAt_ok hr, bind_ok, e, c1, overlay, if_neg hnp, c5]
      exact ⟨_, rfl, ⟨rfl, by simp, by simp [IsSign], by simp, by simp, by simp⟩, rfl, rfl⟩
  | configSign r l =>
    obtain ⟨hr, rfl, hty⟩ := ha
    have hto := h.ts r hr
    obtain ⟨⟨x, hx⟩, _⟩ := id hr
    simp only [step]
    have hty' : HasType st r .sign ∨ linksOf (st.ts r).u = [] := by
      by_cases e : HasType st r .sign
      · exact .inl e
      · exact .inr (linksOf_nil_of_type e hto.notStale)
    refine step_config h hr hty' _ rfl (by simp [credit]) (by simp [sentTo]) _ ?_ ?_
    · intro e; simp only [configSign, tsAt_ok hr, bind_ok, e, if_true]
    · intro e hl
      obtain ⟨t', rc, acts, c1, c2, c3, c4, c5, c6, c7, c8⟩ := cleanup_ok hto
      have hnj : (st.ts r).tmr ≠ .junk := by
        rcases hty with hty | hty
        · rw [sameType_true hty hto.line] at e; cases e
        · exact hty
      simp only [configSign, tsAt_ok hr, bind_ok, e, c1, c5, signDelay, lineAt_ok hx]
      exact ⟨_, rfl, ⟨rfl, by simp, fun _ => by simp only [c3]; exact hnj,
        fun hp => absurd (by simpa [c3] using hp) (not_pending hto hl), by simp, by simp⟩, rfl, rfl⟩
  | configRaw r l cb =>
    obtain ⟨hr, rfl, hty⟩ := ha
    have hto := h.ts r hr
    simp only [step]
    refine step_config h hr hty _ rfl (by simp [credit]) (by simp [sentTo]) _ ?_ ?_
    · intro e; simp only [configRaw, tsAt_ok hr, bind_ok, e, if_true]
    · intro e hl
      obtain ⟨t', rc, acts, c1, c2, c3, c4, c5, c6, c7, c8⟩ := cleanup_ok hto
      simp only [configRaw, tsAt_ok hr, bind_ok, e, c1, c5]
      exact ⟨_, rfl, ⟨rfl, by simp, by simp [IsSign],
        fun hp => absurd (by simpa [c3] using hp) (not_pending hto hl), by simp, by simp⟩, rfl, rfl⟩
  | configHdlc r l cb =>
    obtain ⟨hr, rfl, hty⟩ := ha
    have hto := h.ts r hr
    simp only [step]
    refine step_config h hr hty _ rfl (by simp [credit]) (by simp [sentTo]) _ ?_ ?_
    · intro e; simp only [configHdlc, tsAt_ok hr, bind_ok, e, if_true]
    · intro e hl
      obtain ⟨t', rc, acts, c1, c2, c3, c4, c5, c6, c7, c8⟩ := cleanup_ok hto
      simp only [configHdlc, tsAt_ok hr, bind_ok, e, c1, c5]
      exact ⟨_, rfl, ⟨rfl, by simp, by simp [IsSign],
        fun hp => absurd (by simpa [c3] using hp) (not_pending hto hl), by simp, by simp⟩, rfl, rfl⟩
  | configNone r l =>
    obtain ⟨hr, rfl, hty⟩ := ha
    have hto := h.ts r hr
    simp only [step]
    refine step_config h hr hty _ rfl (by simp [credit]) (by simp [sentTo]) _ ?_ ?_
    · intro e; simp only [configNone, tsAt_ok hr, bind_ok, e, if_true]
    · intro e hl
      obtain ⟨t', rc, acts, c1, c2, c3, c4, c5, c6, c7, c8⟩ := cleanup_ok hto
      simp only [configNone, tsAt_ok hr, bind_ok, e, c1, c5]
      exact ⟨_, rfl, ⟨rfl, by simp, by simp [IsSign],
        fun hp => absurd (by simpa [c3] using hp) (not_pending hto hl), by simp, by simp⟩, rfl, rfl⟩
  | linkCreate r ty trx tei sapi =>
    have hr : At st r := ha
    have hto := h.ts r hr
    obtain ⟨⟨x, hx⟩, hlt⟩ := id hr
    have hp := total_pos h hx
    simp only [step]
    by_cases hs : (st.ts r).u.type = .sign
    · obtain ⟨ls, d, hu⟩ := sign_of_type hs hto.notStale
      have heq : linkCreate st r ty trx tei sapi = .ok
        (setLink (setTs { setLine st r.1 (some { x with uses := addUse x.uses uLink 1 }) with
            nextLink := st.nextLink + 1 } r { st.ts r with u := .sign (ls ++ [st.nextLink]) d }) st.nextLink
          (some { ts := r, type := ty, trx := trx, tei := tei, sapi := sapi, tx := [], onList := true }),
          some st.nextLink, []) := by
        unfold linkCreate
        rw [tsAt_ok hr, bind_ok]
        simp only [hu, hto.line]
        rw [useChange_keep hx (by omega), bind_ok]
        rfl
      rw [heq]
      refine ⟨_, _, rfl, Tr.linkCreate st r ty trx tei sapi x ls d hlt hx hu ?_⟩
      intro l u
      simp only [credit, heq]
    · have heq : linkCreate st r ty trx tei sapi = .ok (st, none, []) := by
        unfold linkCreate
        rw [tsAt_ok hr, bind_ok]
        cases hu : (st.ts r).u with
        | sign ls d => rw [hu] at hs; exact absurd rfl hs
        | stale u => exact absurd hu (hto.notStale u)
        | _ => rfl
      rw [heq]
      refine ⟨_, _, rfl, tr_nop st _ rfl ?_ (by simp [sentTo])⟩
      intro l u
      simp only [credit, heq]
  | destroyBegin k =>
    obtain ⟨x, hk⟩ := ha
    obtain ⟨hat, hin⟩ := h.link k x hk
    have hto := h.ts x.ts hat
    simp only [step]
    cases hon : x.onList with
    | false =>
      have heq : destroyBegin st k = .ok (st, false, []) := by
        unfold destroyBegin
        rw [linkAt_ok hk, bind_ok, hon]
        rfl
      rw [heq]
      exact ⟨_, _, rfl, tr_nop st _ rfl (by simp [credit]) (by simp [sentTo])⟩
    | true =>
      have hm := hin hon
      obtain ⟨ls, d, hu⟩ : ∃ ls d, (st.ts x.ts).u = .sign ls d := by
        cases hu : (st.ts x.ts).u with
        | sign ls d => exact ⟨ls, d, rfl⟩
        | _ => rw [hu] at hm; simp [linksOf] at hm
      rw [hu] at hm
      obtain ⟨⟨y, hy⟩, _⟩ := id hat
      have htmr := hto.sign ⟨ls, d, hu⟩
      have hm' : k ∈ ls := hm
      have hun : unlinkTs (st.ts x.ts) k = .ok { st.ts x.ts with u := .sign (ls.erase k) d } := by
        simp only [unlinkTs, hu, if_pos hm']
      have hdel : ∀ u, timerDel { st.ts x.ts with u := u } = .ok { st.ts x.ts with u := u, tmr := .idle } := by
        intro u
        cases ht : (st.ts x.ts).tmr with
        | junk => exact absurd ht htmr
        | _ => simp only [timerDel, ht]
      have hlo : ∀ u, lineOf st { st.ts x.ts with u := u, tmr := .idle } = .ok y := by
        intro u
        unfold lineOf
        simp only [hto.line, lineAt_ok hy]
      have heq : destroyBegin st k = .ok
          (setLink (setTs st x.ts { st.ts x.ts with u := .sign (ls.erase k) d, tmr := .idle }) k
            (some { x with onList := false, tx := [] }), true, x.tx.map .free ++ closeActs y k) := by
        unfold destroyBegin
        rw [linkAt_ok hk, bind_ok, if_pos hon, tsAt_ok hat, bind_ok, hun, bind_ok, hdel, bind_ok, hlo, bind_ok]
      rw [heq]
      refine ⟨_, _, rfl, Tr.begin st k x ls d (closeActs y k) hk hon hu hm' ?_⟩
      unfold closeActs
      split
      · exact .inr rfl
      · exact .inl rfl
  | destroyEnd k =>
    obtain ⟨x, hk, hoff⟩ := ha
    obtain ⟨hat, _⟩ := h.link k x hk
    have hto := h.ts x.ts hat
    obtain ⟨⟨l, hl⟩, _⟩ := id hat
    have hp := total_pos h hl
    simp only [step, destroyEnd, linkAt_ok hk, bind_ok, tsAt_ok hat, hto.line]
    by_cases ht : total l.uses = 1
    · have htr := Tr.finFree st k x l hk hoff hl ht
      have hi := inv_tr h htr
      rw [useChange_free hl (by omega)]
      · exact ⟨_, _, rfl, htr⟩
      · apply no_timer h hl
        intro j y hy he
        by_cases e : j = k
        · subst e; rw [hk] at hy; cases hy; exact hoff
        · have := (hi.link j y (by simp only [setLink, setLine, e, if_false]; exact hy)).1.1
          obtain ⟨z, hz⟩ := this
          simp [setLink, setLine, he] at hz
    · rw [useChange_keep hl (by omega), bind_ok]
      exact ⟨_, _, rfl, Tr.fin st k x l hk hoff hl (by omega)⟩
  | sendmsg dst m =>
    cases dst with
    | none =>
      exact ⟨_, _, rfl, Tr.pure st _ st.drivers _ (List.Perm.refl _) (by simp [credit]) (by simp [sentTo])
        (calm_of (by simp [Quiet]))⟩
    | some k =>
      obtain ⟨x, hk, hon⟩ := ha
      obtain ⟨hat, hin⟩ := h.link k x hk
      have hto := h.ts x.ts hat
      have hm := hin hon
      obtain ⟨ls, d, hu⟩ : ∃ ls d, (st.ts x.ts).u = .sign ls d := by
        cases hu : (st.ts x.ts).u with
        | sign ls d => exact ⟨ls, d, rfl⟩
        | _ => rw [hu] at hm; simp [linksOf] at hm
      obtain ⟨⟨y, hy⟩, _⟩ := id hat
      have htmr := hto.sign ⟨ls, d, hu⟩
      simp only [step, sendmsg, linkAt_ok hk, bind_ok, tsAt_ok hat, lineOf, hto.line, lineAt_ok hy, hu]
      have hsent : sentTo k (.sendmsg (some k) m) = [m] := by simp [sentTo]
      have hother : ∀ j, j ≠ k → sentTo j (.sendmsg (some k) m) = [] := by
        intro j hj; simp [sentTo, Ne.symm hj]
      have hq := tracePcap_quiet (st.ts x.ts) y true x.sapi x.tei m
      have hd := tracePcap_disposed (st.ts x.ts) y true x.sapi x.tei m
      cases ht : (st.ts x.ts).tmr with
      | junk => exact absurd ht htmr
      | idle =>
        simp only [timerIdle, ht, bind_ok, if_true]
        have hcalm : Calm (.wantWrite x.ts :: tracePcap (st.ts x.ts) y true x.sapi x.tei m) := by
          apply calm_of
          intro a ha
          simp only [List.mem_cons] at ha
          rcases ha with rfl | ha
          · trivial
          · exact hq a ha
        refine ⟨_, _, rfl, Tr.link st _ k x (x.tx ++ [m]) { st.ts x.ts with armed := true } _ hk hon
          ⟨hto.line, hto.notStale, hto.sign, hto.pend, hto.mux, hto.dmx⟩ rfl rfl ?_ ?_ ?_ (by simp [credit])
          hcalm.lines hcalm.links (.inl (.inl rfl))⟩
        · show List.Perm ([m] ++ x.tx) (disposed (tracePcap (st.ts x.ts) y true x.sapi x.tei m) ++ (x.tx ++ [m]))
          rw [hd]; exact List.perm_append_comm
        · rw [hsent, hcalm.tx]; rfl
        · intro j hj; exact ⟨hother j hj, hcalm.tx j⟩
      | pending =>
        simp only [timerIdle, ht, bind_ok, Bool.false_eq_true, if_false]
        have hcalm := calm_of hq
        have hself : setLink st k (some { x with tx := x.tx ++ [m] })
            = setTs (setLink st k (some { x with tx := x.tx ++ [m] })) x.ts (st.ts x.ts) :=
          (setTs_self (setLink st k (some { x with tx := x.tx ++ [m] })) x.ts).symm
        rw [hself]
        refine ⟨_, _, rfl, Tr.link st _ k x (x.tx ++ [m]) (st.ts x.ts) _ hk hon
          hto rfl rfl ?_ ?_ ?_ (by simp [credit])
          hcalm.lines hcalm.links (.inl (.inr ht))⟩
        · show List.Perm ([m] ++ x.tx) (disposed (tracePcap (st.ts x.ts) y true x.sapi x.tei m) ++ (x.tx ++ [m]))
          rw [hd]; exact List.perm_append_comm
        · rw [hsent, hcalm.tx]; rfl
        · intro j hj; exact ⟨hother j hj, hcalm.tx j⟩
  | sendRaw r m =>
    obtain ⟨hr, hty⟩ := ha
    have hto := h.ts r hr
    obtain ⟨cb, q, hu⟩ := raw_of_type hty hto.notStale
    obtain ⟨⟨x, hx⟩, _⟩ := id hr
    have h3 := hto.pend
    rw [hu] at h3
    have hlo : lineOf st (st.ts r) = .ok x := by simp only [lineOf, hto.line, lineAt_ok hx]
    have heq : sendRaw st r m = .ok (setTs st r { st.ts r with u := .raw cb (q ++ [m]), armed := true }, [.wantWrite r]) := by
      unfold sendRaw
      rw [tsAt_ok hr, bind_ok]
      simp only [hu]
      rw [hlo, bind_ok]
      rfl
    simp only [step]
    rw [heq]
    refine ⟨_, _, rfl, Tr.ts st (.sendRaw r m) r { st.ts r with u := .raw cb (q ++ [m]), armed := true } [.wantWrite r] hr
      ⟨hto.line, by simp, by simp [IsSign], h3, by simp, by simp⟩ (by rw [hu]; rfl) ?_ (by simp [credit])
      (by simp [sentTo]) (calm_of (by simp [Quiet])) (.inl fun _ => .inl rfl)⟩
    rw [hu]
    show List.Perm ([m] ++ q) ([] ++ (q ++ [m]))
    exact List.perm_append_comm
  | sendHdlc r m =>
    obtain ⟨hr, hty⟩ := ha
    have hto := h.ts r hr
    obtain ⟨cb, q, hu⟩ := hdlc_of_type hty hto.notStale
    obtain ⟨⟨x, hx⟩, _⟩ := id hr
    have h3 := hto.pend
    rw [hu] at h3
    have hlo : lineOf st (st.ts r) = .ok x := by simp only [lineOf, hto.line, lineAt_ok hx]
    have heq : sendHdlc st r m = .ok (setTs st r { st.ts r with u := .hdlc cb (q ++ [m]), armed := true }, [.wantWrite r]) := by
      unfold sendHdlc
      rw [tsAt_ok hr, bind_ok]
      simp only [hu]
      rw [hlo, bind_ok]
      rfl
    simp only [step]
    rw [heq]
    refine ⟨_, _, rfl, Tr.ts st (.sendHdlc r m) r { st.ts r with u := .hdlc cb (q ++ [m]), armed := true } [.wantWrite r] hr
      ⟨hto.line, by simp, by simp [IsSign], h3, by simp, by simp⟩ (by rw [hu]; rfl) ?_ (by simp [credit])
      (by simp [sentTo]) (calm_of (by simp [Quiet])) (.inl fun _ => .inl rfl)⟩
    rw [hu]
    show List.Perm ([m] ++ q) ([] ++ (q ++ [m]))
    exact List.perm_append_comm
  | txTs r i b =>
    have hr : At st r := ha
    have hto := h.ts r hr
    have h3 := hto.pend
    simp only [step, txTs, tsAt_ok hr, bind_ok]
    have hnone : ∀ (hu : (st.ts r).u ≠ .none → rawq (st.ts r).u = [] ∧ ∀ l d, (st.ts r).u ≠ .trau l d ∧ ∀ n, (st.ts r).u ≠ .i460 n),
        Tr st (.txTs r i b) st [] := by
      intro hu
      refine tr_nop st _ ?_ (by simp [credit]) (by simp [sentTo])
      unfold enters
      cases hv : (st.ts r).u with
      | trau l d => exact absurd hv ((hu (by rw [hv]; simp)).2 l d).1
      | i460 n => exact absurd hv (((hu (by rw [hv]; simp)).2 0 Mux.init).2 n)
      | _ => simp only [hv]
    cases hu : (st.ts r).u with
    | none =>
      exact ⟨_, _, rfl, hnone (by rw [hu]; simp)⟩
    | stale u => exact absurd hu (hto.notStale u)
    | sign ls d =>
      have hls : ∀ k ∈ ls, ∃ x, st.link k = some x ∧ x.ts = r ∧ x.onList = true := by
        intro k hk
        exact h.ls r hr k (by rw [hu]; exact hk)
      simp only
      rcases txScan_spec st ls (fun k hk => by obtain ⟨x, hx, _⟩ := hls k hk; exact ⟨x, hx⟩) with
        ⟨h1, _⟩ | ⟨a, k, c, x, m, ms, e, hk, hq, _, h1⟩
      · rw [h1, bind_ok]
        exact ⟨_, _, rfl, hnone (by rw [hu]; simp [rawq])⟩
      · rw [h1, bind_ok]
        obtain ⟨y, hy, hyr, hyo⟩ := hls k (by rw [e]; simp)
        rw [hk] at hy; cases hy
        have hself : setLink st k (some { x with tx := ms })
            = setTs (setLink st k (some { x with tx := ms })) x.ts (st.ts x.ts) :=
          (setTs_self (setLink st k (some { x with tx := ms })) x.ts).symm
        refine ⟨_, _, rfl, ?_⟩
        show Tr st _ (setLink st k (some { x with tx := ms })) [.tx r (some k) m]
        rw [hself]
        refine Tr.link st _ k x ms (st.ts x.ts) _ hk hyo (by rw [hyr]; exact hto) rfl rfl ?_ ?_ ?_
          (by simp [credit]) rfl rfl (.inr ⟨fun z => z, fun _ => by rw [hq]; simp⟩)
        · simp only [enters, hu, hq]; exact List.Perm.refl _
        · simp [txOf, sentTo, hq]
        · intro j hj; simp [txOf, sentTo, Ne.symm hj]
    | trau cb mx =>
      obtain ⟨bs, mx', h1, h2, h4⟩ := muxOut_ok (hto.mux cb mx hu) 40
      rw [hu] at h3
      simp only [h1, bind_ok]
      refine ⟨_, _, rfl, Tr.ts st (.txTs r i b) r { st.ts r with u := .trau cb mx' } _ hr ?_ (by rw [hu]; rfl) ?_
        (by simp [credit]) (by simp [sentTo]) (calm_of (by simp [Quiet, txActs])) (.inl fun z => z)⟩
      · exact ⟨hto.line, by simp, by simp [IsSign], h3, by intro _ _ e; cases e; exact h4,
          fun _ _ _ => hto.dmx cb mx hu⟩
      · simp only [enters, hu, h1]; exact List.Perm.refl _
    | raw cb q =>
      rw [hu] at h3
      cases q with
      | nil => exact ⟨_, _, rfl, hnone (by rw [hu]; simp [rawq])⟩
      | cons m q =>
        refine ⟨_, _, rfl, Tr.ts st (.txTs r i b) r { st.ts r with u := .raw cb q } _ hr
          ⟨hto.line, by simp, by simp [IsSign], h3, by simp, by simp⟩ (by rw [hu]; rfl) ?_ (by simp [credit])
          (by simp [sentTo]) (calm_of (by simp [Quiet, txActs])) (.inl fun z => z)⟩
        simp only [enters, hu]; exact List.Perm.refl _
    | hdlc cb q =>
      rw [hu] at h3
      cases q with
      | nil => exact ⟨_, _, rfl, hnone (by rw [hu]; simp [rawq])⟩
      | cons m q =>
        refine ⟨_, _, rfl, Tr.ts st (.txTs r i b) r { st.ts r with u := .hdlc cb q } _ hr
          ⟨hto.line, by simp, by simp [IsSign], h3, by simp, by simp⟩ (by rw [hu]; rfl) ?_ (by simp [credit])
          (by simp [sentTo]) (calm_of (by simp [Quiet, txActs])) (.inl fun z => z)⟩
        simp only [enters, hu]; exact List.Perm.refl _
    | i460 n =>
      refine ⟨_, _, rfl, Tr.pure st _ st.drivers _ ?_ (by simp [credit]) (by simp [sentTo])
        (calm_of (by simp [Quiet, txActs]))⟩
      simp only [enters, hu]; exact List.Perm.refl _
  | drvWrite r =>
    have hr : At st r := ha
    have hto := h.ts r hr
    simp only [step, drvWrite, tsAt_ok hr, bind_ok]
    have hnop : Tr st (.drvWrite r) st [] := tr_nop st _ rfl (by simp [credit]) (by simp [sentTo])
    cases hu : (st.ts r).u with
    | sign ls d =>
      have hls : ∀ k ∈ ls, ∃ x, st.link k = some x ∧ x.ts = r ∧ x.onList = true := by
        intro k hk
        exact h.ls r hr k (by rw [hu]; exact hk)
      have htmr := hto.sign ⟨ls, d, hu⟩
      simp only
      rw [← hu]
      rcases txScan_spec (setTs st r { st.ts r with armed := false }) ls
        (fun k hk => by obtain ⟨x, hx, _⟩ := hls k hk; exact ⟨x, hx⟩) with
        ⟨h1, h2⟩ | ⟨a, k, c, x, m, ms, e, hk, hq, _, h1⟩
      · rw [h1, bind_ok]
        refine ⟨_, _, rfl, Tr.ts st (.drvWrite r) r { st.ts r with armed := false } [] hr
          ⟨hto.line, hto.notStale, hto.sign, hto.pend, hto.mux, hto.dmx⟩ rfl (List.Perm.refl _) (by simp [credit])
          (by simp [sentTo]) calm_nil (.inr ?_)⟩
        rw [hu]
        exact h2
      · rw [h1, bind_ok]
        have hk' : st.link k = some x := hk
        obtain ⟨y, hy, hyr, hyo⟩ := hls k (by rw [e]; simp)
        rw [hk'] at hy; cases hy
        have hr' : At (setLink (setTs st r { st.ts r with armed := false }) k (some { x with tx := ms })) r := hr
        have hst : timerStart { st.ts r with armed := false } = .ok { st.ts r with armed := false, tmr := .pending } := by
          cases ht : (st.ts r).tmr with
          | junk => exact absurd ht htmr
          | _ => simp only [timerStart, ht]
        have hget : (setLink (setTs st r { st.ts r with armed := false }) k (some { x with tx := ms })).ts r
            = { st.ts r with armed := false } := by simp [setLink, setTs]
        simp only [Option.map_some, drvSent, tsAt_ok hr', bind_ok, hget, hst]
        have hcomm : setTs (setLink (setTs st r { st.ts r with armed := false }) k (some { x with tx := ms })) r
              { st.ts r with armed := false, tmr := .pending }
            = setTs (setLink st k (some { x with tx := ms })) x.ts { st.ts r with armed := false, tmr := .pending } := by
          have key : ∀ q : TsRef, q = r → setTs (setLink (setTs st r { st.ts r with armed := false }) k (some { x with tx := ms })) r
              { st.ts r with armed := false, tmr := .pending }
            = setTs (setLink st k (some { x with tx := ms })) q { st.ts r with armed := false, tmr := .pending } := by
            intro q hq
            rw [hq]
            exact setTs_setTs (setLink st k (some { x with tx := ms })) r _ _
          exact key _ hyr
        refine ⟨_, _, rfl, ?_⟩
        rw [hcomm]
        refine Tr.link st _ k x ms { st.ts r with armed := false, tmr := .pending } _ hk' hyo ?_ (by rw [hyr])
          (by rw [hyr]) ?_ ?_ ?_ (by simp [credit]) rfl rfl (.inl (.inr rfl))
        · rw [hyr]
          exact ⟨hto.line, hto.notStale, by simp, by intro _; rw [hu, e]; simp [linksOf], hto.mux, hto.dmx⟩
        · simp only [enters, hq]; exact List.Perm.refl _
        · simp [txOf, txActs, sentTo, hq]
        · intro j hj; simp [txOf, txActs, sentTo, Ne.symm hj]
    | stale u => exact absurd hu (hto.notStale u)
    | _ => exact ⟨_, _, rfl, hnop⟩
  | timerFire r =>
    have hr : At st r := ha
    have hto := h.ts r hr
    simp only [step, timerFire, tsAt_ok hr, bind_ok]
    have hnop : Tr st (.timerFire r) st [] := tr_nop st _ rfl (by simp [credit]) (by simp [sentTo])
    cases ht : (st.ts r).tmr with
    | pending =>
      exact ⟨_, _, rfl, Tr.ts st (.timerFire r) r { st.ts r with tmr := .idle, armed := true } [.wantWrite r] hr
        ⟨hto.line, hto.notStale, by simp, by simp, hto.mux, hto.dmx⟩ rfl (List.Perm.refl _) (by simp [credit])
        (by simp [sentTo]) (calm_of (by simp [Quiet])) (.inl fun _ => .inl rfl)⟩
    | _ => exact ⟨_, _, rfl, hnop⟩
  | muxEnqueue r c f =>
    obtain ⟨hr, hty, hc, hf⟩ := ha
    have hto := h.ts r hr
    obtain ⟨cb, mx, hu⟩ := trau_of_type hty hto.notStale
    have h3 := hto.pend
    rw [hu] at h3
    simp only [step, muxEnqueue, tsAt_ok hr, bind_ok, hu, Mux.enqueue, if_pos hc]
    refine ⟨_, _, rfl, Tr.ts st (.muxEnqueue r c f) r _ _ hr ⟨hto.line, by simp, by simp [IsSign], h3, ?_, fun _ _ _ => hto.dmx cb mx hu⟩
      (by rw [hu]; rfl) (by rw [hu]; exact List.Perm.refl _) (by simp [credit])
      (by simp [sentTo]) calm_nil (.inl fun z => z)⟩
    intro cb' m' e
    cases e
    intro c' hc' e he
    have hmx := hto.mux cb mx hu
    simp only [Mux.setQ] at he
    by_cases e' : c' = c
    · rw [if_pos e', Mux.enqueueQ_eq] at he
      rcases List.mem_append.1 he with he | he
      · exact hmx c hc e (List.mem_of_mem_drop he)
      · simp only [List.mem_singleton] at he
        subst he
        exact ⟨hf, rfl, by simp⟩
    · rw [if_neg e'] at he
      exact hmx c' hc' e he
  | subchActivate r c =>
    obtain ⟨hr, hty, hc⟩ := ha
    have hto := h.ts r hr
    obtain ⟨cb, mx, hu⟩ := trau_of_type hty hto.notStale
    have hd := hto.dmx cb mx hu
    have : ∃ d' rc, Demux.activate (st.ts r).dmx c = .ok (d', rc) ∧ DmxOk d' := by
      unfold Demux.activate
      split
      · exact ⟨_, _, rfl, hd⟩
      · rw [if_neg (by omega)]; exact ⟨_, _, rfl, hd⟩
    obtain ⟨d', rc, h1, h2⟩ := this
    have h3 := hto.pend
    rw [hu] at h3
    simp only [step, subchActivate, tsAt_ok hr, bind_ok, hu, h1]
    exact ⟨_, _, rfl, Tr.ts st (.subchActivate r c) r { st.ts r with u := .trau cb mx, dmx := d' } [] hr
      ⟨hto.line, by simp, by simp [IsSign], h3, by intro _ _ e; cases e; exact hto.mux cb mx hu, fun _ _ _ => h2⟩
      (by rw [hu]) (by rw [hu]; exact List.Perm.refl _) (by simp [credit])
      (by simp [sentTo]) calm_nil (.inl fun z => z)⟩
  | subchDeactivate r c =>
    obtain ⟨hr, hty, hc⟩ := ha
    have hto := h.ts r hr
    obtain ⟨cb, mx, hu⟩ := trau_of_type hty hto.notStale
    have hd := hto.dmx cb mx hu
    have : ∃ d' rc, Demux.deactivate (st.ts r).dmx c = .ok (d', rc) ∧ DmxOk d' := by
      unfold Demux.deactivate
      split
      · exact ⟨_, _, rfl, hd⟩
      · rw [if_neg (by omega)]; exact ⟨_, _, rfl, hd⟩
    obtain ⟨d', rc, h1, h2⟩ := this
    have h3 := hto.pend
    rw [hu] at h3
    simp only [step, subchDeactivate, tsAt_ok hr, bind_ok, hu, h1]
    exact ⟨_, _, rfl, Tr.ts st (.subchDeactivate r c) r { st.ts r with u := .trau cb mx, dmx := d' } [] hr
      ⟨hto.line, by simp, by simp [IsSign], h3, by intro _ _ e; cases e; exact hto.mux cb mx hu, fun _ _ _ => h2⟩
      (by rw [hu]) (by rw [hu]; exact List.Perm.refl _) (by simp [credit])
      (by simp [sentTo]) calm_nil (.inl fun z => z)⟩
  | rxTs r m tei sapi =>
    obtain ⟨hr, hb⟩ := ha
    obtain ⟨st', rc, acts, h1, h2⟩ := rxTs_tr h hr hb m tei sapi (.rxTs r m tei sapi) rfl (by simp [credit]) (by simp [sentTo])
    simp only [step, h1]
    exact ⟨_, _, rfl, h2⟩
  | dlsapUp r p ind m tei sapi =>
    obtain ⟨hr, hty, hb⟩ := ha
    have hfree : Tr st (.dlsapUp r p ind m tei sapi) st [.free m] :=
      Tr.pure st _ st.drivers _ (List.Perm.refl _) (by simp [credit]) (by simp [sentTo]) (calm_of (by simp [Quiet]))
    have hev : ∀ evt, ∃ st' acts, (do
        let (_, acts) ← event st r evt tei sapi
        Except.ok (st, acts ++ [.free m]) : M (St × List Act)) = .ok (st', acts) ∧
        Tr st (.dlsapUp r p ind m tei sapi) st' acts := by
      intro evt
      obtain ⟨rc, acts, h1, h2, h3⟩ := event_ok h hr hty evt tei sapi
      rw [h1, bind_ok]
      refine ⟨_, _, rfl, Tr.pure st _ st.drivers _ ?_ (by simp [credit]) (by simp [sentTo]) (calm_of ?_)⟩
      · rw [disposed_append, h3]; exact List.Perm.refl _
      · intro a ha
        rcases List.mem_append.1 ha with ha | ha
        · exact h2 a ha
        · simp only [List.mem_singleton] at ha; subst ha; trivial
    simp only [step]
    cases p with
    | est => exact hev _
    | rel => exact hev _
    | mdlError => exact ⟨_, _, rfl, hfree⟩
    | other => exact ⟨_, _, rfl, hfree⟩
    | data =>
      simp only [dlsapUp]
      cases ind with
      | false => exact ⟨_, _, rfl, hfree⟩
      | true =>
        obtain ⟨st', rc, acts, h1, h2⟩ := rxTs_tr h hr (fun _ => hb) m tei sapi (.dlsapUp r .data true m tei sapi) rfl (by simp [credit]) (by simp [sentTo])
        simp only [if_true, h1, bind_ok]
        exact ⟨_, _, rfl, h2⟩
    | unitData =>
      simp only [dlsapUp]
      cases ind with
      | false => exact ⟨_, _, rfl, hfree⟩
      | true =>
        obtain ⟨st', rc, acts, h1, h2⟩ := rxTs_tr h hr (fun _ => hb) m tei sapi (.dlsapUp r .unitData true m tei sapi) rfl (by simp [credit]) (by simp [sentTo])
        simp only [if_true, h1, bind_ok]
        exact ⟨_, _, rfl, h2⟩
  | event r evt tei sapi =>
    obtain ⟨hr, hty⟩ := ha
    obtain ⟨rc, acts, h1, h2, h3⟩ := event_ok h hr hty evt tei sapi
    simp only [step, h1]
    refine ⟨_, _, rfl, Tr.pure st _ st.drivers _ ?_ (by simp [credit]) (by simp [sentTo]) (calm_of h2)⟩
    rw [show (enters st (.event r evt tei sapi)) = [] from rfl]
    show List.Perm [] (disposed acts)
    rw [h3]

end Verif.E1
