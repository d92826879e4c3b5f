import Verif.Proof.IpAccessBtsStep
/-!
# Proofs: histories of the ip.access BTS
-/
set_option maxRecDepth 10000
namespace Verif.IpAccess.Bts

def Silent (a : List Act) : Prop := ∀ j, outcome j a = []

theorem outcome_append (j : Nat) (a b : List Act) : outcome j (a ++ b) = outcome j a ++ outcome j b := by
  induction a with
  | nil => rfl
  | cons x a ih =>
    cases x <;> simp only [List.cons_append, outcome, ih]
    all_goals (split <;> simp)

theorem silent_append {a b : List Act} (ha : Silent a) (hb : Silent b) : Silent (a ++ b) := by
  intro j; rw [outcome_append, ha j, hb j]; rfl

theorem silent_nil : Silent [] := fun _ => rfl

theorem shutActs_silent (w : W) (x : Cli) : Silent (shutActs w x) := by
  intro j
  simp only [shutActs]
  split
  · rfl
  · split <;> rfl

theorem clearActs_silent (w : W) (t : Nat) : Silent (clearActs w t) := by
  simp only [clearActs]
  split
  · exact silent_nil
  · exact shutActs_silent _ _

theorem openActs_silent (w : W) (t : Nat) (ok : Bool) : Silent (openActs w t ok) := by
  simp only [openActs]
  apply silent_append (clearActs_silent _ _)
  intro j; split <;> rfl

/-- what every operation does, except that messages are sent -/
structure Good (w : W) (w' : W) (a : List Act) : Prop where
  I : Inv w'
  mono : w.next ≤ w'.next
  keep : ∀ k ∈ w'.links, k ∈ w.links ∨ w.next ≤ k.id
  silent : Silent a

theorem good_shut {w : W} (I : Inv w) {x : Cli} (hx : x ∈ w.clis) : Good w (shut w x) (shutActs w x) := by
  obtain ⟨-, h2, h3, -⟩ := shut_ext w x
  exact ⟨shut_inv I hx, by rw [h3]; exact Nat.le_refl _, by rw [h2]; exact fun k hk => .inl hk, shutActs_silent w x⟩

theorem good_same {w : W} (I : Inv w) {a : List Act} (h : Silent a) : Good w w a :=
  ⟨I, Nat.le_refl _, fun _ hk => .inl hk, h⟩

theorem good_reopened {w : W} (I : Inv w) {t : Nat} (ht : t < 32) (ok : Bool) :
    Good w (reopened { w with il := true } t ok) (openActs { w with il := true } t ok) := by
  obtain ⟨h1, h2, -, h4, -⟩ := clear_ext (w := { w with il := true }) t
  refine ⟨reopened_inv (withIl_inv I) rfl ht ok, ?_, ?_, openActs_silent _ _ _⟩
  · cases ok with
    | true =>
      show w.next ≤ (if (clear { w with il := true } t).kap then (clear { w with il := true } t).next + 2 else (clear { w with il := true } t).next + 1)
      rw [h4]
      split
      · exact Nat.le_add_right w.next 2
      · exact Nat.le_add_right w.next 1
    | false =>
      show w.next ≤ (clear { w with il := true } t).next + 1
      rw [h4]; exact Nat.le_succ _
  · intro k hk
    cases ok with
    | true =>
      have : k ∈ (clear { w with il := true } t).links := hk
      rw [h1] at this; exact .inl this
    | false =>
      have : k ∈ (clear { w with il := true } t).links := hk
      rw [h1] at this; exact .inl this

theorem good_clear {w : W} (I : Inv w) (t : Nat) : Good w (clear w t) (clearActs w t) := by
  obtain ⟨h1, h2, -, h4, -⟩ := clear_ext (w := w) t
  exact ⟨(clear_inv I t).1, by rw [h4]; exact Nat.le_refl _, by rw [h1]; exact fun k hk => .inl hk, clearActs_silent w t⟩

theorem noRc_ok {r : M (W × Int × List Act)} {w : W} {a : List Act} (h : noRc r = .ok (w, a)) : ∃ rc, r = .ok (w, rc, a) := by
  cases r with
  | error e => simp [noRc] at h
  | ok v =>
    obtain ⟨w1, rc, a1⟩ := v
    simp only [noRc, Except.ok.injEq, Prod.mk.injEq] at h
    exact ⟨rc, by rw [h.1, h.2]⟩

theorem kaTimeout_run {w : W} (I : Inv w) {y : Fsm} (hy : y ∈ w.fsms) (hr : y.run = true) : kaTimeout w y.id = .error .badptr := by
  obtain ⟨x, hx, e1, -⟩ := I.run y hy hr
  have hk : kaCleanup w x.ts = .ok (noKa w x.ts) := kaCleanup_inv_eq I x.ts
  have hf : w.ka x.ts = some y.id := fsm_ts I hx hy e1.symm
  have hg : getFsm (noKa w x.ts) y.id = .error .badptr := by
    simp only [getFsm]
    have : (noKa w x.ts).fsms.find? (fun z => z.id == y.id) = none := by
      rw [List.find?_eq_none]
      intro z hz
      obtain ⟨-, hn⟩ := List.mem_filter.1 hz
      simp only [hf, decide_eq_true_eq] at hn
      intro e
      have : z.id = y.id := by simpa using e
      exact hn (by rw [this])
    rw [this]
  simp only [kaTimeout, bind, Except.bind, getFsm_mem I.nf hy, hr, Bool.true_eq_false, if_false, downCb, ← e1, getCli_mem I.nc hx, hk, hg]

/-- `rxCcm` for a client -/
theorem rxCcm_good {w : W} (I : Inv w) {c : Nat} {m : Ccm} {w' : W} {a : List Act} (h : rxCcm w c m = .ok (w', a)) : Good w w' a := by
  simp only [rxCcm, bind, Except.bind] at h
  split at h
  · simp at h
  · rename_i x hg
    obtain ⟨hx, rfl⟩ := getCli_ok hg
    have close : ∀ {w' : W} {a : List Act}, cliClose w x.id = .ok (w', a) → Good w w' a := by
      intro w' a h
      rw [cliClose_eq I hx] at h
      cases h; exact good_shut I hx
    split at h
    · simp at h
    · split at h
      · simp at h
      · split at h
        · simp at h
        · split at h
          · cases h; exact good_same I silent_nil
          · exact close h
    · split at h
      · cases h; exact good_same I silent_nil
      · exact close h
    · split at h
      · exact close h
      · split at h
        · simp at h
        · split at h
          · simp at h
          · split at h
            · exact close h
            · split at h
              · cases h; exact good_same I (fun _ => rfl)
              · rw [cliClose_eq I hx] at h
                cases h
                obtain ⟨g1, g2, g3, g4⟩ := good_shut I hx
                exact ⟨g1, g2, g3, silent_append (a := [_, _]) (fun _ => rfl) g4⟩

theorem step_good {w : W} (I : Inv w) {op : Op} {w' : W} {a : List Act} (h : step w op = .ok (w', a)) (hn : ∀ k m, op ≠ .sendmsg k m) : Good w w' a := by
  cases op with
  | lineUpdate ok =>
    obtain ⟨rc, h⟩ := noRc_ok h
    rw [lineUpdate_eq I] at h
    cases h
    exact good_reopened I (by decide) ok
  | rslConnect trx ok =>
    obtain ⟨rc, h⟩ := noRc_ok h
    cases h1 : trxRefused trx with
    | true =>
      cases h2 : rslTs trx with
      | none => simp [rslConnect, h1, h2] at h
      | some t =>
        simp only [rslConnect, h1, h2] at h
        cases h; exact good_same I silent_nil
    | false =>
      cases h2 : rslTs trx with
      | none => simp [rslConnect, h1, h2] at h
      | some t =>
        rw [rslConnect_eq I h1 h2] at h
        cases h
        exact good_reopened I (rslTs_ok h2).2 ok
  | rslClose trx =>
    obtain ⟨rc, h⟩ := noRc_ok h
    cases h1 : trxRefused trx with
    | true =>
      simp only [rslClose, h1] at h
      cases h; exact good_same I silent_nil
    | false =>
      cases h2 : rslTs trx with
      | none => simp [rslClose, h1, h2] at h
      | some t =>
        rw [rslClose_eq I h1 h2] at h
        cases h
        exact good_clear I t
  | connected c =>
    have h0 := h
    simp only [step, connected, bind, Except.bind] at h
    split at h
    · simp at h
    · rename_i x hg
      obtain ⟨hx, rfl⟩ := getCli_ok hg
      obtain ⟨w1, a1, h1, I1, h2, h3, h4⟩ := connected_good I hx
      rw [step, h1] at h0
      cases h0
      refine ⟨I1, by rw [h3]; exact Nat.le_refl _, by rw [h2]; exact fun k hk => .inl hk, ?_⟩
      rcases h4 with rfl | rfl
      · exact silent_nil
      · exact fun _ => rfl
  | lost c =>
    have h0 := h
    simp only [step, cliClose, bind, Except.bind] at h
    split at h
    · simp at h
    · rename_i x hg
      obtain ⟨hx, rfl⟩ := getCli_ok hg
      rw [step, cliClose_eq I hx] at h0
      cases h0
      exact good_shut I hx
  | rxCcm c m => exact rxCcm_good I h
  | rx c p m =>
    simp only [step, rx, bind, Except.bind] at h
    split at h
    · simp at h
    · rename_i x hg
      obtain ⟨hx, rfl⟩ := getCli_ok hg
      split at h
      · rw [cliClose_eq I hx] at h
        cases h; exact good_shut I hx
      · cases h; exact good_same I (fun _ => rfl)
  | kaTimeout f =>
    have h0 := h
    simp only [step, kaTimeout, bind, Except.bind] at h
    split at h
    · simp at h
    · rename_i y hg
      obtain ⟨hy, rfl⟩ := getFsm_ok hg
      cases hr : y.run with
      | true => rw [step, kaTimeout_run I hy hr] at h0; simp at h0
      | false =>
        rw [if_pos hr] at h
        cases h; exact good_same I silent_nil
  | kaPing f =>
    simp only [step, kaPing, bind, Except.bind] at h
    split at h
    · simp at h
    · split at h
      · simp at h
      · split at h
        · cases h; exact good_same I (fun _ => rfl)
        · cases h; exact good_same I silent_nil
  | linkCreate t ty tei sapi =>
    simp only [step, linkCreate] at h
    split at h
    · cases h
      refine ⟨addLink_inv I rfl rfl, Nat.le_succ _, ?_, silent_nil⟩
      intro k hk
      rcases List.mem_append.1 hk with hk | hk
      · exact .inl hk
      · simp only [List.mem_singleton] at hk
        subst hk
        exact .inr (Nat.le_refl _)
    · cases h; exact good_same I silent_nil
  | linkDestroy k =>
    obtain ⟨x, hx, rfl, c, hc, e, rfl, rfl⟩ := linkDestroy_ok I h
    obtain ⟨e1, e2, e3, e4, e5, -⟩ := unlinked_ext w x.id x.ts
    have hm : c ∈ (unlinked w x.id x.ts).clis := by rw [e1]; exact hc
    obtain ⟨-, h2, h3, -⟩ := shut_ext (unlinked w x.id x.ts) c
    refine ⟨shut_inv (unlinked_inv I _ _) hm, ?_, ?_, shutActs_silent w c⟩
    · rw [h3, e5]; exact Nat.le_refl _
    · rw [h2, e4]; exact fun k hk => .inl (List.mem_filter.1 hk).1
  | sendmsg k m => exact absurd rfl (hn k m)
  | setKap b =>
    simp only [step, Except.ok.injEq, Prod.mk.injEq] at h
    obtain ⟨rfl, rfl⟩ := h
    exact ⟨withKap_inv I b, Nat.le_refl _, fun k hk => .inl hk, silent_nil⟩

theorem init_inv (kap pcap cf : Bool) : Inv (init kap pcap cf) := by
  refine ⟨?_, ?_, ?_, ?_, ?_, ?_, ?_, ?_, ?_, ?_, ?_, ?_, ?_, ?_, ?_⟩ <;> simp [init]

theorem step_inv {w : W} (I : Inv w) {op : Op} {w' : W} {a : List Act} (h : step w op = .ok (w', a)) : Inv w' := by
  by_cases hs : ∃ k m, op = .sendmsg k m
  · obtain ⟨k, m, rfl⟩ := hs
    obtain ⟨x, -, -, c, -, -, rfl, -⟩ := sendmsg_ok I h
    exact I
  · exact (step_good I h (fun k m e => hs ⟨k, m, e⟩)).I

theorem run_cons {w : W} {op : Op} {ops : List Op} {w' : W} {acts : List Act} (h : run w (op :: ops) = .ok (w', acts)) :
    ∃ w1 a b, step w op = .ok (w1, a) ∧ run w1 ops = .ok (w', b) ∧ acts = a ++ b := by
  simp only [run, bind, Except.bind] at h
  split at h
  · simp at h
  · rename_i v hs
    split at h
    · simp at h
    · rename_i v2 hr
      cases h
      exact ⟨v.1, v.2, v2.2, hs, hr, rfl⟩

theorem run_append {ops ops2 : List Op} : ∀ {w w' : W} {acts : List Act}, run w (ops ++ ops2) = .ok (w', acts) →
    ∃ w1 a b, run w ops = .ok (w1, a) ∧ run w1 ops2 = .ok (w', b) ∧ acts = a ++ b := by
  induction ops with
  | nil => intro w w' acts h; exact ⟨w, [], acts, rfl, h, rfl⟩
  | cons op ops ih =>
    intro w w' acts h
    obtain ⟨w1, a, b, hs, hr, rfl⟩ := run_cons h
    obtain ⟨w2, a2, b2, h1, h2, rfl⟩ := ih hr
    refine ⟨w2, a ++ a2, b2, ?_, h2, by simp⟩
    simp only [run, bind, Except.bind, hs, h1]

theorem run_inv {ops : List Op} : ∀ {w w' : W} {acts : List Act}, Inv w → run w ops = .ok (w', acts) → Inv w' := by
  induction ops with
  | nil => intro w w' acts I h; simp only [run, Except.ok.injEq, Prod.mk.injEq] at h; rw [← h.1]; exact I
  | cons op ops ih =>
    intro w w' acts I h
    obtain ⟨w1, a, b, hs, hr, -⟩ := run_cons h
    exact ih (step_inv I hs) hr

theorem reach {kap pcap cf : Bool} {ops : List Op} {w : W} {acts : List Act} (h : run (init kap pcap cf) ops = .ok (w, acts)) : Inv w :=
  run_inv (init_inv kap pcap cf) h

theorem exact_of {w : W} (I : Inv w) : Exact w := by
  have one : ∀ x ∈ w.clis, ∀ y ∈ w.clis, x.ts = y.ts → x = y := by
    intro x hx y hy e
    have h1 := I.back x hx
    have h2 := I.back y hy
    rw [e, h2] at h1
    exact nodup_inj Cli.id I.nc hx hy (Option.some.inj h1).symm
  refine ⟨one, ?_, ?_, ?_, I.run⟩
  · intro t c
    refine ⟨I.slot t c, ?_⟩
    rintro ⟨x, hx, rfl, rfl⟩
    exact I.back x hx
  · intro t f
    refine ⟨I.ka t f, ?_⟩
    rintro ⟨y, hy, rfl, h⟩
    obtain ⟨x, hx, e1, e2⟩ := I.slot t _ h
    rw [← e2]; exact fsm_ts I hx hy e1.symm
  · intro y hy z hz e
    obtain ⟨t, h1, h2⟩ := I.kb y hy
    obtain ⟨x, hx, e1, -⟩ := I.slot t _ h2
    have h3 := fsm_ts I hx hy e1.symm
    have h4 := fsm_ts I hx hz (by rw [← e, e1])
    rw [h3] at h4
    exact nodup_inj Fsm.id I.nf hy hz (Option.some.inj h4)

/-! ### Messages -/

theorem asked_append (k : Nat) (a b : List Op) : asked k (a ++ b) = asked k a ++ asked k b := by
  induction a with
  | nil => rfl
  | cons x a ih =>
    cases x <;> simp only [List.cons_append, asked, ih]
    split <;> simp

structure Sent (w : W) (ops : List Op) (acts : List Act) : Prop where
  k : ∀ k ∈ w.links, Fates k (asked k.id ops) (outcome k.id acts)
  n : ∀ j, w.next ≤ j → asked j ops = [] ∧ outcome j acts = []

theorem asked_one {op : Op} (hn : ∀ k m, op ≠ .sendmsg k m) (j : Nat) : asked j [op] = [] := by
  cases op <;> first | rfl | exact absurd rfl (hn _ _)

theorem sent_step {w : W} (I : Inv w) {ops : List Op} {acts : List Act} (S : Sent w ops acts) {op : Op} {w' : W} {a : List Act} (h : step w op = .ok (w', a)) :
    Sent w' (ops ++ [op]) (acts ++ a) := by
  by_cases hs : ∃ k m, op = .sendmsg k m
  · obtain ⟨j, m, rfl⟩ := hs
    obtain ⟨x, hx, rfl, c, hc, e, rfl, rfl⟩ := sendmsg_ok I h
    refine ⟨?_, ?_⟩
    · intro k hk
      rw [asked_append, outcome_append]
      by_cases he : x.id = k.id
      · have := nodup_inj SLink.id I.nk hx hk he
        subst this
        have h1 : asked x.id [.sendmsg x.id m] = [m] := by simp [asked]
        rw [h1]
        simp only [sendMsg]
        split
        · have h2 : outcome x.id [.send c.id x.id (Ipa.pushHeader m x.tei)] = [some (framed x m)] := by simp [outcome, framed]
          rw [h2]; exact .sent m (S.k x hk)
        · have h2 : outcome x.id [.drop x.id] = [none] := by simp [outcome]
          rw [h2]; exact .dropped m (S.k x hk)
      · have h1 : asked k.id [.sendmsg x.id m] = [] := by simp [asked, he]
        have h2 : outcome k.id (sendMsg x c m) = [] := by
          simp only [sendMsg]; split <;> simp [outcome, he]
        rw [h1, h2, List.append_nil, List.append_nil]; exact S.k k hk
    · intro j hj
      obtain ⟨h1, h2⟩ := S.n j hj
      have := I.bk x hx
      have he : x.id ≠ j := by omega
      rw [asked_append, outcome_append, h1, h2]
      have h3 : asked j [.sendmsg x.id m] = [] := by simp [asked, he]
      have h4 : outcome j (sendMsg x c m) = [] := by
        simp only [sendMsg]; split <;> simp [outcome, he]
      rw [h3, h4]; exact ⟨rfl, rfl⟩
  · have hn : ∀ k m, op ≠ .sendmsg k m := fun k m e => hs ⟨k, m, e⟩
    have G := step_good I h hn
    have e1 : ∀ j, asked j (ops ++ [op]) = asked j ops := by intro j; rw [asked_append, asked_one hn]; simp
    have e2 : ∀ j, outcome j (acts ++ a) = outcome j acts := by intro j; rw [outcome_append, G.silent]; simp
    refine ⟨?_, ?_⟩
    · intro k hk
      rw [e1, e2]
      rcases G.keep k hk with hk | hk
      · exact S.k k hk
      · obtain ⟨h1, h2⟩ := S.n k.id hk
        rw [h1, h2]; exact .nil
    · intro j hj
      rw [e1, e2]
      exact S.n j (Nat.le_trans G.mono hj)

theorem run_sent {ops : List Op} : ∀ {w w' : W} {p : List Op} {b acts : List Act}, Inv w → Sent w p b → run w ops = .ok (w', acts) →
    Sent w' (p ++ ops) (b ++ acts) := by
  induction ops with
  | nil =>
    intro w w' p b acts I S h
    simp only [run, Except.ok.injEq, Prod.mk.injEq] at h
    obtain ⟨rfl, rfl⟩ := h
    simpa using S
  | cons op ops ih =>
    intro w w' p b acts I S h
    obtain ⟨w1, a1, b1, hs, hr, rfl⟩ := run_cons h
    have := ih (step_inv I hs) (sent_step I S hs) hr
    simpa using this

theorem init_sent (kap pcap cf : Bool) : Sent (init kap pcap cf) [] [] :=
  ⟨fun k hk => by simp [init] at hk, fun _ _ => ⟨rfl, rfl⟩⟩

/-! ### Safety -/

theorem step_safe {w : W} (I : Inv w) {op : Op} (hc : Calm w op) : ∃ w' a, step w op = .ok (w', a) := by
  cases op with
  | lineUpdate ok => exact ⟨_, _, by rw [step, lineUpdate_eq I]; rfl⟩
  | rslConnect trx ok =>
    have hc : trx < 31 := hc
    have h2 : rslTs trx = some (1 + trx) := if_pos (show 1 + trx < 32 by omega)
    have h1 : trxRefused trx = false := decide_eq_false (by simp only [SIGN_RSL, NUM_TS]; omega)
    exact ⟨_, _, by rw [step, rslConnect_eq I h1 h2]; rfl⟩
  | rslClose trx =>
    cases h1 : trxRefused trx with
    | true => exact ⟨_, _, by simp only [step, rslClose, h1]; rfl⟩
    | false =>
      have h2 : rslTs trx = some (1 + trx) := by
        have := of_decide_eq_false h1
        exact if_pos (by simp only [SIGN_RSL, NUM_TS] at this ⊢; omega)
      exact ⟨_, _, by rw [step, rslClose_eq I h1 h2]; rfl⟩
  | connected c =>
    obtain ⟨x, hx, rfl⟩ := hc
    obtain ⟨w1, a1, h1, -⟩ := connected_good I hx
    exact ⟨_, _, h1⟩
  | lost c =>
    obtain ⟨x, hx, rfl⟩ := hc
    exact ⟨_, _, cliClose_eq I hx⟩
  | rxCcm c m =>
    obtain ⟨⟨x, hx, rfl, hp⟩, he⟩ := hc
    have hcl := cliClose_eq I hx
    cases m with
    | empty => exact absurd rfl he
    | pong base =>
      obtain ⟨y, hy, e⟩ := hp base rfl
      have hk := fsm_ts I hx hy e
      simp only [step, rxCcm, bind, Except.bind, getCli_mem I.nc hx, hk, getFsm_mem I.nf hy]
      cases base with
      | true => exact ⟨_, _, rfl⟩
      | false => exact ⟨_, _, hcl⟩
    | other base =>
      simp only [step, rxCcm, bind, Except.bind, getCli_mem I.nc hx]
      cases base with
      | true => exact ⟨_, _, rfl⟩
      | false => exact ⟨_, _, hcl⟩
    | idGet base resp up =>
      have hsg : ∃ s, signType (tsNum x.ts) = .ok s ∧ ∃ t, trxNr (tsNum x.ts) = .ok t := by
        by_cases h0 : x.ts = 0
        · rw [h0]; exact ⟨_, rfl, _, rfl⟩
        · have h1 : ¬ (tsNum x.ts = 0) := by simp only [tsNum]; omega
          have h2 : ¬ (tsNum x.ts = 1) := by simp only [tsNum]; omega
          have h3 : signType (tsNum x.ts) = .ok SIGN_RSL := by rw [signType, if_neg h1, if_neg h2]
          refine ⟨_, h3, tsNum x.ts - 2, ?_⟩
          simp only [trxNr, h3, bind, Except.bind]
          rw [if_neg (by decide), if_neg (by decide)]
      obtain ⟨s, hs, t, ht⟩ := hsg
      simp only [step, rxCcm, bind, Except.bind, getCli_mem I.nc hx, hs, ht, hcl]
      cases base <;> cases resp <;> cases up <;> exact ⟨_, _, rfl⟩
  | rx c p m =>
    obtain ⟨x, hx, rfl⟩ := hc
    simp only [step, rx, bind, Except.bind, getCli_mem I.nc hx, cliClose_eq I hx]
    split
    · exact ⟨_, _, rfl⟩
    · exact ⟨_, _, rfl⟩
  | kaTimeout f =>
    obtain ⟨y, hy, rfl, hr⟩ := hc
    simp only [step, kaTimeout, bind, Except.bind, getFsm_mem I.nf hy, hr, if_true]
    exact ⟨_, _, rfl⟩
  | kaPing f =>
    obtain ⟨y, hy, rfl⟩ := hc
    obtain ⟨t, -, h⟩ := I.kb y hy
    obtain ⟨x, hx, e, -⟩ := I.slot t _ h
    simp only [step, kaPing, bind, Except.bind, getFsm_mem I.nf hy, ← e, getCli_mem I.nc hx]
    split
    · exact ⟨_, _, rfl⟩
    · exact ⟨_, _, rfl⟩
  | linkCreate t ty tei sapi =>
    simp only [step, linkCreate]
    split
    · exact ⟨_, _, rfl⟩
    · exact ⟨_, _, rfl⟩
  | linkDestroy k =>
    obtain ⟨x, hx, rfl, c, hc, e⟩ := hc
    exact ⟨_, _, linkDestroy_eq I hx hc e⟩
  | sendmsg k m =>
    obtain ⟨x, hx, rfl, c, hc, e, hp⟩ := hc
    refine ⟨w, sendMsg x c m, ?_⟩
    rw [step, sendmsg_eq I hx hc e m, if_neg]
    rintro ⟨h1, h2⟩
    obtain ⟨h3, h4⟩ := hp h1
    have hk : known x = true := decide_eq_true h4
    simp only [sendMsg, hk, h3, and_self, if_true] at h2
    simp at h2
  | setKap b => exact ⟨_, _, rfl⟩

theorem run_safe {ops : List Op} : ∀ {w : W}, Inv w → CalmRun w ops → ∃ w' acts, run w ops = .ok (w', acts) := by
  induction ops with
  | nil => intro w _ _; exact ⟨_, _, rfl⟩
  | cons op ops ih =>
    intro w I hc
    obtain ⟨w1, a, hs⟩ := step_safe I hc.1
    obtain ⟨w2, b, hr⟩ := ih (step_inv I hs) (hc.2 _ _ hs)
    exact ⟨w2, a ++ b, by simp only [run, bind, Except.bind, hs, hr]⟩

end Verif.IpAccess.Bts
