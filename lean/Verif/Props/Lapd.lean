import Verif.Proof.LapdRx
/-!
# Properties C48-C53, C78-C82: LAPD frames, TEI management, SAP life cycle
-/
namespace Verif.Lapd
open Verif.Spec.Lapd

/-! ## C48 header encoding and parsing are inverse -/

/-- C48 (wire layout): a frame sent for the data link of an existing SAP carries exactly the Q.921
header for the fields of the message context, in front of the payload; the one octet address is used
only for TEI 0 with a profile that asks for it.  The frame goes to the transmit callback and, the
same, to the pcap file. -/
theorem C48_wire_layout (li : Li) (h : Hdr) (hv : h.Valid) (l : Lctx) (hl : Carries l h)
    (hlive : (sapById li l.dl).isSome) (payload : List Byte) (headroom : Nat) (hh : 4 ≤ headroom) :
    let f := (if li.profile.shortAddress && h.tei == 0 then h.octetsShort else h.octets) ++ payload
    sendPhDataReq li l payload headroom
      = .ok (0, [.pcap true f, .transmit li.transmitCb li.transmitCbdata f]) := by
  intro f
  unfold sendPhDataReq
  cases e : sapById li l.dl with
  | none => rw [e] at hlive; cases hlive
  | some p => exact sendFrame_eq li h hv l hl payload headroom hh

theorem lctxOf_ne_127 (h : Hdr) (hv : h.Valid) (ht : h.tei ≠ 127) : (lctxOf h).tei ≠ 127 := by
  rw [(carries_lctxOf h).2.1]
  have := oct_eq_127 hv.2.1
  intro e
  rw [e] at this
  simp at this
  exact ht this

/-- the receiving side: a frame with header `h` (either address length) for a registered TEI is
delivered, complete, to the data link for (TEI, SAPI) with a context carrying exactly `h` -/
theorem receive_hdr (rx : Li) (hk : rx.profile.k.length = 64) (h : Hdr) (hv : h.Valid)
    (ht : h.tei ≠ 127) (hknown : Known rx (oct h.tei)) (short : Bool) (hs : short = true → h.tei = 0)
    (payload : List Byte) (rc : Int)
    (hlen : ∀ p, lookup rx (oct h.tei) (oct h.sapi) = some p → payload.length ≤ p.maxf)
    (hlen0 : lookup rx (oct h.tei) (oct h.sapi) = none → payload.length ≤ rx.profile.n201) :
    let f := (if short then h.octetsShort else h.octets) ++ payload
    ∃ rx' p l, receive rx f rc = .ok ⟨rx', rc, none, [.pcap false f, .phDataInd l payload]⟩
      ∧ Carries l h ∧ l.length = payload.length ∧ l.dl = p.id
      ∧ lookup rx' (oct h.tei) (oct h.sapi) = some p := by
  intro f
  have hp : parseHeader f
      = .ok (some (lctxOf h, (if short then h.octetsShort else h.octets).length)) := by
    cases short with
    | true => exact parseHeader_short h hv (hs rfl) payload
    | false => exact parseHeader_long h hv payload
  have hrec := receive_some rx hp (payload := payload) (by simp [f]) rc
  obtain ⟨c1, c2, c3, c4⟩ := carries_lctxOf h
  have h127 := lctxOf_ne_127 h hv ht
  have hmax : ∀ li' p, Eff rx li' → lookup li' (oct h.tei) (oct h.sapi) = some p →
      (lookup rx (oct h.tei) (oct h.sapi) = none ∨ li' = rx) → payload.length ≤ p.maxf := by
    intro li' p he hl hor
    rcases hor with hn | rfl
    · cases he with
      | same => rw [hn] at hl; cases hl
      | tei t hk' => rw [lookup_teiAlloc _ _ hk', hn] at hl; cases hl
      | sap t q hk' hn' hi htt hss hm =>
        rw [lookup_addSap _ _ _ _ hk'] at hl
        by_cases hc : oct h.tei = t ∧ oct h.sapi = q.sapi
        · rw [if_pos hc] at hl
          cases hl
          rw [hm]; exact hlen0 hn
        · rw [if_neg hc, hn] at hl; cases hl
    · exact hlen p hl
  rcases receiveBody_cases rx hk (lctxOf h) payload rc with ⟨hx, -⟩ | ⟨-, hx, -⟩ | ⟨-, -, li', p, he, hlk, hor, hx⟩
  · exact absurd hx h127
  · rw [c2] at hx; exact absurd hknown hx
  · rw [c2, c1] at hlk hor
    rcases hx with ⟨hx, -⟩ | ⟨-, hx⟩
    · have := hmax li' p he hlk hor; omega
    · rw [hx, bind_ok] at hrec
      exact ⟨li', p, _, hrec, ⟨c1, c2, c3, c4⟩, rfl, rfl, hlk⟩

/-- C48: a frame sent by one instance for any I, S or U header is parsed by any other instance that
knows the TEI into a context with the same values, and delivered with the same payload to the data
link for that TEI and SAPI. -/
theorem C48_roundtrip (tx rx : Li) (hk : rx.profile.k.length = 64) (h : Hdr) (hv : h.Valid)
    (ht : h.tei ≠ 127) (hknown : Known rx (oct h.tei)) (l : Lctx) (hl : Carries l h)
    (hlive : (sapById tx l.dl).isSome) (payload : List Byte) (headroom : Nat) (hh : 4 ≤ headroom)
    (rc : Int)
    (hlen : ∀ p, lookup rx (oct h.tei) (oct h.sapi) = some p → payload.length ≤ p.maxf)
    (hlen0 : lookup rx (oct h.tei) (oct h.sapi) = none → payload.length ≤ rx.profile.n201) :
    ∃ f rx' p l', sendPhDataReq tx l payload headroom
        = .ok (0, [.pcap true f, .transmit tx.transmitCb tx.transmitCbdata f])
      ∧ receive rx f rc = .ok ⟨rx', rc, none, [.pcap false f, .phDataInd l' payload]⟩
      ∧ Carries l' h ∧ l'.length = payload.length ∧ l'.dl = p.id
      ∧ lookup rx' (oct h.tei) (oct h.sapi) = some p := by
  obtain ⟨rx', p, l', h1, h2⟩ := receive_hdr rx hk h hv ht hknown
    (tx.profile.shortAddress && h.tei == 0) (by simp) payload rc hlen hlen0
  exact ⟨_, rx', p, l', C48_wire_layout tx h hv l hl hlive payload headroom hh, h1, h2⟩

/-- a network side instance with two registered TEIs and one established SAP -/
def exLi : Li :=
  match run (instanceAlloc2 true 11 12 13 14 profileAbis)
      [.receive (identityRequest 1 2 5) 0, .sapStart 3 62 0] with
  | .ok r => r.1
  | .error _ => instanceAlloc2 true 0 0 0 0 profileAbis

-- the hypotheses of `C48_roundtrip` hold for an I frame on TEI 3, SAPI 62
example : Known exLi (oct 3) ∧ exLi.profile.k.length = 64 ∧ (sapById exLi 0).isSome
    ∧ (Hdr.mk 62 3 1 (.info 100 99 1)).Valid
    ∧ Carries { Lctx.zero with sapi := 62, tei := 3, cr := 1, format := .i, n_send := 100, n_recv := 99, p_f := 1 }
        (Hdr.mk 62 3 1 (.info 100 99 1))
    ∧ (lookup exLi (oct 3) (oct 62)).map (·.maxf) = some 260 := by
  refine ⟨(known_iff _ _).2 (by decide +kernel), by decide +kernel, by decide +kernel, ?_, ?_, by decide +kernel⟩
  · simp [Hdr.Valid, Ctrl.Valid]
  · exact ⟨rfl, rfl, rfl, rfl, rfl, rfl, rfl⟩

/-! ## C49 the parser is memory safe -/

/-- C49: no octet string makes `lapd_receive` access memory outside the frame (or fault otherwise) -/
theorem C49_no_fault (li : Li) (hk : li.profile.k.length = 64) (d : List Byte) (rc : Int) :
    ∃ r, receive li d rc = .ok r := by
  rcases Classical.em (Complete d) with ⟨addr, ctrl, payload, rfl, ha, hc⟩ | h
  · obtain ⟨l, hp, -⟩ := parse_complete (payload := payload) ha hc
    rw [receive_some li hp (drop_hdr addr ctrl payload) rc]
    rcases receiveBody_cases li hk l payload rc with
      ⟨-, _, -, e⟩ | ⟨-, -, e⟩ | ⟨-, -, _, _, -, -, -, ⟨-, e⟩ | ⟨-, e⟩⟩ <;> (rw [e]; exact ⟨_, rfl⟩)
  · exact ⟨_, receive_incomplete li h rc⟩

/-- C49: a frame whose header is truncated is reported as `BAD_LEN` with `-EINVAL`; nothing is
registered, sent or delivered -/
theorem C49_truncated (li : Li) (d : List Byte) (h : ¬ Complete d) (rc : Int) :
    receive li d rc = .ok ⟨li, -EINVAL, some .badLen, [.pcap false d]⟩ :=
  receive_incomplete li h rc

/-- C49: conversely a frame with a complete header is reported as `BAD_LEN` only if its payload is
longer than the N201 of the data link it is for -/
theorem C49_badlen_only (li : Li) (hk : li.profile.k.length = 64) {addr ctrl payload : List Byte}
    (ha : IsAddr addr) (hc : IsCtrl ctrl) (rc : Int) (r : Rx)
    (hr : receive li (addr ++ ctrl ++ payload) rc = .ok r) (hb : r.error = some .badLen) :
    ∃ p, lookup r.li (teiOf addr) (sapiOf addr) = some p ∧ p.maxf < payload.length := by
  obtain ⟨l, hp, h1, h2⟩ := parse_complete (payload := payload) ha hc
  rw [receive_some li hp (drop_hdr addr ctrl payload) rc] at hr
  rcases receiveBody_cases li hk l payload rc with
    ⟨-, _, -, e⟩ | ⟨-, -, e⟩ | ⟨-, -, li', p, -, hl, -, ⟨hlt, e⟩ | ⟨-, e⟩⟩ <;>
    (rw [e, bind_ok] at hr; obtain rfl := Except.ok.inj hr)
  · cases hb
  · cases hb
  · exact ⟨p, by rw [← h1, ← h2]; exact hl, hlt⟩
  · cases hb

-- truncated and complete frames exist; the one byte I-frame tail is truncated
example : ¬ Complete [0xfa, 0x07, 0x00] ∧ Complete [0xfa, 0x07, 0x03] := by
  refine ⟨?_, [0xfa, 0x07], [0x03], [], rfl, .long (by decide), .u (by decide)⟩
  rintro ⟨a, c, p, h, ha, hc⟩
  cases ha with
  | short hh =>
    simp only [List.cons_append, List.nil_append, List.cons.injEq] at h
    obtain ⟨h1, -⟩ := h
    subst h1
    revert hh; decide
  | long hh =>
    cases hc with
    | u h3 =>
      simp only [List.cons_append, List.nil_append, List.cons.injEq] at h
      obtain ⟨-, -, h1, -⟩ := h
      subst h1
      revert h3; decide
    | is h3 => simp at h

/-! ## C50 ownership of the message -/

/-- how often an action list gives the received message away (frees it or passes it on) -/
def consumed (acts : List Act) : Nat :=
  acts.countP fun a => match a with | .freeMsg => true | .phDataInd _ _ => true | _ => false

/-- C50 (partial): every frame with a complete header is freed or passed on, exactly once.  Missing:
frames with a truncated header, for which this is false (`C50_violated`). -/
theorem C50_consumed_once_partial (li : Li) (hk : li.profile.k.length = 64) (d : List Byte)
    (h : Complete d) (rc : Int) (r : Rx) (hr : receive li d rc = .ok r) : consumed r.acts = 1 := by
  obtain ⟨addr, ctrl, payload, rfl, ha, hc⟩ := h
  obtain ⟨l, hp, -⟩ := parse_complete (payload := payload) ha hc
  rw [receive_some li hp (drop_hdr addr ctrl payload) rc] at hr
  rcases receiveBody_cases li hk l payload rc with
    ⟨-, q, hq, e⟩ | ⟨-, -, e⟩ | ⟨-, -, li', p, -, -, -, ⟨-, e⟩ | ⟨-, e⟩⟩ <;>
    (rw [e, bind_ok] at hr; obtain rfl := Except.ok.inj hr)
  · have : consumed q.2.2 = 0 := by
      unfold teiReceive at hq
      by_cases h5 : payload.length < 5
      · rw [if_pos h5] at hq
        obtain rfl := Except.ok.inj hq
        rfl
      · rw [if_neg h5, rd_ok (by omega), rd_ok (by omega), bind_ok, bind_ok] at hq
        simp only at hq
        split at hq
        · obtain rfl := Except.ok.inj hq
          rfl
        · obtain rfl := Except.ok.inj hq
          rfl
    simp only [consumed] at this ⊢
    rw [List.countP_cons, List.countP_append, this]
    rfl
  all_goals rfl

/-- C50 is false: a frame with a truncated header is neither freed nor passed on (`lapd_receive`
returns without `msgb_free`, and its only caller `e1inp_rx_ts_lapd` does not free it either). -/
theorem C50_violated (li : Li) (d : List Byte) (h : ¬ Complete d) (rc : Int) :
    ∃ r, receive li d rc = .ok r ∧ consumed r.acts = 0 :=
  ⟨_, receive_incomplete li h rc, rfl⟩

/-! ## C51 TEI assignment -/

/-- C51: an identity request for any TEI, whatever its reference number, returns 0, is answered by
exactly one identity assigned message for the same TEI, and the TEI is registered afterwards.  No
other TEI appears or disappears and no SAP is created or removed. -/
theorem C51_identity_request (li : Li) (r1 r2 : Byte) (tei : Nat) (ht : tei < 128) (rc : Int) :
    ∃ li', receive li (identityRequest r1 r2 tei) rc = .ok ⟨li', 0, none,
        [.pcap false (identityRequest r1 r2 tei), .pcap true (identityAssigned 0 0 tei),
         .transmit li.transmitCb li.transmitCbdata (identityAssigned 0 0 tei), .freeMsg]⟩
      ∧ (∀ t, Known li' t ↔ Known li t ∨ t = oct tei)
      ∧ (Known li (oct tei) → li' = li)
      ∧ (∀ t s, lookup li' t s = lookup li t s) := by
  have hp : parseHeader (identityRequest r1 r2 tei)
      = .ok (some ({ Lctx.zero with sapi := 63, tei := 127, format := .u }, 3)) := by
    have : ∀ r1 r2 x : Byte, parseHeader [0xfc, 0xff, 0x03, 0x0f, r1, r2, 0x01, x]
        = .ok (some ({ Lctx.zero with sapi := 63, tei := 127, format := .u }, 3)) :=
      fun _ _ _ => rfl
    exact this _ _ _
  have hact : (oct (2 * tei + 1)) >>> 1 = oct tei := by
    exact (tei_facts ⟨tei, ht⟩).2
  have hresp : (oct tei <<< 1) ||| 1 = oct (2 * tei + 1) := by
    exact (by decide +kernel : ∀ t : Fin 128, (oct t.val <<< 1) ||| 1 = oct (2 * t.val + 1)) ⟨tei, ht⟩
  refine ⟨ensureTei li (oct tei), ?_, ?_, ?_, ?_⟩
  · rw [receive_some li hp (payload := [0x0f, r1, r2, 0x01, oct (2 * tei + 1)]) rfl rc]
    have ht' : teiReceive li [0x0f, r1, r2, 0x01, oct (2 * tei + 1)]
        = .ok (ensureTei li (oct tei), 0, [.pcap true (identityAssigned 0 0 tei),
          .transmit li.transmitCb li.transmitCbdata (identityAssigned 0 0 tei)]) := by
      have : teiReceive li [0x0f, r1, r2, 0x01, oct (2 * tei + 1)]
        = .ok (ensureTei li ((oct (2 * tei + 1)) >>> 1), 0,
          [.pcap true (teiResponse ((oct (2 * tei + 1)) >>> 1)),
           .transmit li.transmitCb li.transmitCbdata (teiResponse ((oct (2 * tei + 1)) >>> 1))]) := rfl
      rw [this, hact]
      unfold teiResponse
      rw [hresp]
      rfl
    show (receiveBody li _ _ rc >>= _) = _
    have hb : receiveBody li { Lctx.zero with sapi := 63, tei := 127, format := .u }
        [0x0f, r1, r2, 0x01, oct (2 * tei + 1)] rc
        = (teiReceive li [0x0f, r1, r2, 0x01, oct (2 * tei + 1)] >>= fun r =>
            .ok ⟨r.1, r.2.1, none, r.2.2 ++ [.freeMsg]⟩) := rfl
    rw [hb, ht']
    rfl
  · intro t
    unfold ensureTei
    cases h : teipFromTei li (oct tei) with
    | some e =>
      refine ⟨Or.inl, ?_⟩
      rintro (hh | rfl)
      · exact hh
      · exact (known_iff _ _).2 (by rw [h]; rfl)
    | none => exact known_teiAlloc li (oct tei) t
  · intro hkn
    unfold ensureTei
    rw [known_iff] at hkn
    cases h : teipFromTei li (oct tei) with
    | some e => rfl
    | none => rw [h] at hkn; cases hkn
  · intro t s
    unfold ensureTei
    cases h : teipFromTei li (oct tei) with
    | some e => rfl
    | none => exact lookup_teiAlloc li _ (known_none.1 h) t s

/-- C51: an identity assigned message carries the TEI it was asked for, so different TEIs get
different answers (used by the peer to recognise its own) -/
theorem C51_answers_distinct (t u : Nat) (ht : t < 128) (hu : u < 128)
    (h : identityAssigned 0 0 t = identityAssigned 0 0 u) : t = u := by
  have e : oct (2 * t + 1) = oct (2 * u + 1) := by
    unfold identityAssigned at h
    simpa using h
  unfold oct at e
  have := congrArg BitVec.toNat e
  simp at this
  omega

-- a request for a TEI that is not known yet
example : ¬ Known exLi (oct 9) ∧ Known exLi (oct 5) := by
  refine ⟨?_, (known_iff _ _).2 (by decide +kernel)⟩
  rw [← known_none]
  decide +kernel

/-- C78 is false: the answer does not echo the reference number of the request unless that is zero,
so a requester cannot tell whether an assignment is an answer to its own request. -/
theorem C78_reference_not_echoed (li : Li) (r1 r2 : Byte) (hr : (r1, r2) ≠ (0, 0)) (tei : Nat)
    (ht : tei < 128) (rc : Int) :
    ∃ r, receive li (identityRequest r1 r2 tei) rc = .ok r ∧
      ∀ cb data, Act.transmit cb data (identityAssigned r1 r2 tei) ∉ r.acts := by
  obtain ⟨li', h, -⟩ := C51_identity_request li r1 r2 tei ht rc
  refine ⟨_, h, ?_⟩
  intro cb data hm
  simp only [List.mem_cons, reduceCtorEq, List.not_mem_nil, or_false, false_or,
    Act.transmit.injEq] at hm
  obtain ⟨-, -, hm⟩ := hm
  unfold identityAssigned at hm
  simp only [List.cons.injEq, true_and, and_true] at hm
  exact hr (by rw [hm.1, hm.2])

/-- C78 (partial): a request with reference number zero is answered with the same reference number -/
theorem C78_reference_zero_partial (li : Li) (tei : Nat) (ht : tei < 128) (rc : Int) :
    ∃ r, receive li (identityRequest 0 0 tei) rc = .ok r ∧
      Act.transmit li.transmitCb li.transmitCbdata (identityAssigned 0 0 tei) ∈ r.acts := by
  obtain ⟨li', h, -⟩ := C51_identity_request li 0 0 tei ht rc
  exact ⟨_, h, by simp⟩

/-! ## C52 SAP life cycle -/

/-- C52: starting an existing SAP returns `-EEXIST` and has no effect -/
theorem C52_start_existing (li : Li) (t s : Byte) (rc : Int) (h : (lookup li t s).isSome) :
    sapStart li t s rc = .ok (li, -EEXIST, []) := by
  unfold sapStart
  cases he : teipFromTei li t with
  | none =>
    rw [lookup_none_of_unknown (known_none.1 he)] at h; cases h
  | some e =>
    rw [lookup_of_teip he] at h
    simp only [sapStartOn]
    cases hs : sapFind e s with
    | none => rw [hs] at h; cases h
    | some p => rfl

/-- C52: starting any other SAP creates it (registering the TEI if necessary), with the window and
N201 of the profile, and requests establishment of exactly this data link; no other SAP changes -/
theorem C52_start_new (li : Li) (hk : li.profile.k.length = 64) (t s : Byte) (rc : Int)
    (h : lookup li t s = none) :
    ∃ li' p, sapStart li t s rc = .ok (li', rc, [.dlReq .est p.id []])
      ∧ p.sapi = s ∧ p.lctxTei = t ∧ p.lctxSapi = s ∧ p.id = li.nextId
      ∧ p.maxf = li.profile.n201 ∧ li.profile.k[(s &&& 0x3f).toNat]? = some p.k
      ∧ p.network = li.networkSide
      ∧ (∀ t' s', lookup li' t' s' = if t' = t ∧ s' = s then some p else lookup li t' s')
      ∧ (∀ t', Known li' t' ↔ Known li t' ∨ t' = t) := by
  unfold sapStart
  cases he : teipFromTei li t with
  | none =>
    have hnk := known_none.1 he
    obtain ⟨p, hp, h1, h2, h3, h4, h5, -, h7, h8⟩ := sapAlloc_ok (teiAlloc li t) hk t s
    have hkn : Known (teiAlloc li t) t := (known_teiAlloc li t t).2 (Or.inr rfl)
    refine ⟨{ teiAlloc li t with nextId := li.nextId + 1, teis := updTei (teiAlloc li t).teis t (fun e => { e with saps := p :: e.saps }) },
      p, ?_, h2, h3, h4, h1, h5, h8, h7, ?_, ?_⟩
    rotate_left 2
    · intro t'
      rw [← known_teiAlloc li t t']
      refine known_of_map ?_ t'
      exact updTei_map _ _ (fun e => { e with saps := p :: e.saps }) (by intro e; rfl)
    · simp only [sapStartOn, sapFind, List.find?_nil, hp, bind_ok]
      rfl
    · intro t' s'
      have := lookup_addSap (teiAlloc li t) ((teiAlloc li t).nextId + 1) t p hkn t' s'
      rw [h2, lookup_teiAlloc li t hnk] at this
      exact this
  | some e =>
    have hkn : Known li t := (known_iff _ _).2 (by rw [he]; rfl)
    rw [lookup_of_teip he] at h
    obtain ⟨p, hp, h1, h2, h3, h4, h5, -, h7, h8⟩ := sapAlloc_ok li hk t s
    refine ⟨{ li with nextId := li.nextId + 1, teis := updTei (li).teis t (fun e => { e with saps := p :: e.saps }) },
      p, ?_, h2, h3, h4, h1, h5, h8, h7, ?_, ?_⟩
    rotate_left 2
    · intro t'
      rw [show Known li t' ∨ t' = t ↔ Known li t' from
        ⟨by rintro (h | rfl); exact h; exact hkn, Or.inl⟩]
      refine known_of_map ?_ t'
      exact updTei_map _ _ (fun e => { e with saps := p :: e.saps }) (by intro e; rfl)
    · simp only [sapStartOn, h, hp, bind_ok]
    · intro t' s'
      have := lookup_addSap li (li.nextId + 1) t p hkn t' s'
      rw [h2] at this
      exact this

/-- C52: stopping acts on an existing SAP only, by requesting the release of its data link -/
theorem C52_stop (li : Li) (t s : Byte) (rc : Int) :
    sapStop li t s rc = match lookup li t s with
      | none => (-ENODEV, [])
      | some p => (rc, [.dlReq .rel p.id []]) := by
  unfold sapStop; cases lookup li t s <;> rfl

/-- C52: sending on an existing SAP hands the message to exactly its data link; without a SAP the
message is freed -/
theorem C52_transmit (li : Li) (t s : Byte) (msg : List Byte) :
    transmit li t s msg = match lookup li t s with
      | none => [.freeMsg]
      | some p => [.dlReq .data p.id msg] := by
  unfold transmit; cases lookup li t s <;> rfl

/-- C52: a release (confirm or indication) for a SAP frees it, once, before the user is told; it is
not found afterwards and every other SAP still is -/
theorem C52_release (li : Li) (hi : Inv li) (t s : Byte) (p : Sap) (h : lookup li t s = some p)
    (l : Lctx) (hl : l.dl = p.id) (payload : List Byte) :
    ∃ li', sendDlsap li l .rel payload = .ok (li', [.sapFree p.id,
        .receive li.receiveCb li.receiveCbdata .rel l.tei l.sapi payload])
      ∧ lookup li' t s = none
      ∧ (∀ t' s' q, lookup li t' s' = some q → q.id ≠ p.id → lookup li' t' s' = some q) := by
  have hmem : ∃ e, teipFromTei li t = some e ∧ p ∈ e.saps := by
    unfold lookup at h
    cases he : teipFromTei li t with
    | none => rw [he] at h; cases h
    | some e =>
      rw [he] at h
      exact ⟨e, rfl, List.mem_of_find?_eq_some h⟩
  obtain ⟨e, he, hpe⟩ := hmem
  refine ⟨sapFree li p.id, ?_, ?_, ?_⟩
  · unfold sendDlsap
    have : (sapById li l.dl).isSome := by
      unfold sapById
      rw [List.find?_isSome]
      refine ⟨(e, p), ?_, by simp [hl]⟩
      simp only [List.mem_flatMap, List.mem_map]
      exact ⟨e, (teip_tei he).2, p, hpe, rfl⟩
    cases hb : sapById li l.dl with
    | none => rw [hb] at this; cases this
    | some _ =>
      simp only [hl]
      rfl
  · rw [lookup_sapFree hi, h]
    simp [Option.filter]
  · intro t' s' q hq hne
    rw [lookup_sapFree hi, hq]
    simp [Option.filter, hne]

-- the SAP of the example instance
example : (lookup exLi 3 62).isSome ∧ lookup exLi 3 0 = none ∧ lookup exLi 9 62 = none := by
  decide +kernel

/-! ## C53 the deprecated constructor -/

/-- C53 (what `lapd_instance_alloc2` guarantees): frames go to the given transmit callback with the
given data, primitives to the given receive callback with the given data -/
theorem C53_alloc2_callbacks (n : Bool) (txCb txData rxCb rxData : Ptr) (p : Profile)
    (r1 r2 : Byte) (tei : Nat) (ht : tei < 128) (rc : Int) :
    ∃ r, receive (instanceAlloc2 n txCb txData rxCb rxData p) (identityRequest r1 r2 tei) rc = .ok r
      ∧ Act.transmit txCb txData (identityAssigned 0 0 tei) ∈ r.acts := by
  obtain ⟨li', h, -⟩ := C51_identity_request (instanceAlloc2 n txCb txData rxCb rxData p) r1 r2 tei ht rc
  exact ⟨_, h, by simp [instanceAlloc2]⟩

/-- C53 is false: an instance made by `lapd_instance_alloc` calls its callback *data* as the transmit
function, with the function pointer as data. -/
theorem C53_violated (n : Bool) (txCb txData rxCb rxData : Ptr) (hne : txCb ≠ txData) (p : Profile)
    (r1 r2 : Byte) (tei : Nat) (ht : tei < 128) (rc : Int) :
    ∃ r, receive (instanceAlloc n txCb txData rxCb rxData p) (identityRequest r1 r2 tei) rc = .ok r
      ∧ Act.transmit txData txCb (identityAssigned 0 0 tei) ∈ r.acts
      ∧ ∀ d f, Act.transmit txCb d f ∉ r.acts := by
  obtain ⟨li', h, -⟩ := C51_identity_request (instanceAlloc n txCb txData rxCb rxData p) r1 r2 tei ht rc
  refine ⟨_, h, by simp [instanceAlloc, instanceAlloc2], ?_⟩
  intro d f hm
  simp [instanceAlloc, instanceAlloc2, hne] at hm

/-! ## C79 frames reach only the data link they are addressed to -/

/-- C79: when a received frame is handed to a data link, this is the one registered for the TEI and
SAPI of its address field (with the one octet address: TEI 0), the TEI was registered before, and the
payload is what follows the header, not longer than N201. -/
theorem C79_addressed_only (li : Li) (hk : li.profile.k.length = 64) {addr ctrl payload : List Byte}
    (ha : IsAddr addr) (hc : IsCtrl ctrl) (rc : Int) (r : Rx)
    (hr : receive li (addr ++ ctrl ++ payload) rc = .ok r) (l : Lctx) (pl : List Byte)
    (hm : Act.phDataInd l pl ∈ r.acts) :
    Known li (teiOf addr) ∧ teiOf addr ≠ 127 ∧ l.tei = teiOf addr ∧ l.sapi = sapiOf addr ∧ pl = payload
    ∧ l.length = payload.length
    ∧ ∃ p, lookup r.li (teiOf addr) (sapiOf addr) = some p ∧ l.dl = p.id ∧ payload.length ≤ p.maxf := by
  obtain ⟨l0, hp, h1, h2⟩ := parse_complete (payload := payload) ha hc
  rw [receive_some li hp (drop_hdr addr ctrl payload) rc] at hr
  rcases receiveBody_cases li hk l0 payload rc with
    ⟨-, q, hq, e⟩ | ⟨-, -, e⟩ | ⟨h127, hkn, li', p, -, hl, -, ⟨-, e⟩ | ⟨hle, e⟩⟩ <;>
    (rw [e, bind_ok] at hr; obtain rfl := Except.ok.inj hr)
  · exfalso
    simp only [List.mem_cons, List.mem_append, reduceCtorEq, List.not_mem_nil, or_false, false_or] at hm
    unfold teiReceive at hq
    by_cases h5 : payload.length < 5
    · rw [if_pos h5] at hq
      obtain rfl := Except.ok.inj hq
      cases hm
    · rw [if_neg h5, rd_ok (by omega), rd_ok (by omega), bind_ok, bind_ok] at hq
      simp only at hq
      split at hq
      · obtain rfl := Except.ok.inj hq
        simp at hm
      · obtain rfl := Except.ok.inj hq
        cases hm
  · simp at hm
  · simp at hm
  · simp only [List.mem_cons, reduceCtorEq, List.not_mem_nil, or_false, false_or,
      Act.phDataInd.injEq] at hm
    obtain ⟨rfl, rfl⟩ := hm
    rw [← h1, ← h2]
    exact ⟨hkn, h127, rfl, rfl, rfl, rfl, p, hl, rfl, hle⟩

/-- C79: a frame for a TEI that is not registered changes nothing and is reported as such -/
theorem C79_unknown_tei (li : Li) (hk : li.profile.k.length = 64) {addr ctrl payload : List Byte}
    (ha : IsAddr addr) (hc : IsCtrl ctrl) (rc : Int) (h127 : teiOf addr ≠ 127)
    (hu : ¬ Known li (teiOf addr)) :
    receive li (addr ++ ctrl ++ payload) rc
      = .ok ⟨li, -EINVAL, some .unknownTei, [.pcap false (addr ++ ctrl ++ payload), .freeMsg]⟩ := by
  obtain ⟨l0, hp, h1, h2⟩ := parse_complete (payload := payload) ha hc
  rw [receive_some li hp (drop_hdr addr ctrl payload) rc]
  rcases receiveBody_cases li hk l0 payload rc with
    ⟨hx, -⟩ | ⟨-, -, e⟩ | ⟨-, hkn, -⟩
  · rw [h1] at hx; exact absurd hx h127
  · rw [e]; rfl
  · rw [h1] at hkn; exact absurd hkn hu

/-! ## C80 every SAP that can be started can be used -/

/-- C80 is false: a SAP with a SAPI above 63 can be started, but no received frame is ever handed to
a data link with such a SAPI -/
theorem C80_violated (li : Li) (hk : li.profile.k.length = 64) (t s : Byte) (hs : 64 ≤ s.toNat)
    (h : lookup li t s = none) (rc : Int) :
    (∃ (li' : Li) (p : Sap), sapStart li t s rc = .ok (li', rc, [.dlReq .est p.id []]) ∧ p.sapi = s) ∧
    (∀ (li' : Li) (d : List Byte) (rc : Int) (r : Rx), li'.profile.k.length = 64 →
      receive li' d rc = .ok r → ∀ l pl, Act.phDataInd l pl ∈ r.acts → l.sapi ≠ s) := by
  refine ⟨?_, ?_⟩
  · obtain ⟨li', p, h1, h2, -⟩ := C52_start_new li hk t s rc h
    exact ⟨li', p, h1, h2⟩
  · intro li' d rc r hk' hr l pl hm
    rcases Classical.em (Complete d) with ⟨addr, ctrl, payload, rfl, ha, hc⟩ | hn
    · have := (C79_addressed_only li' hk' ha hc rc r hr l pl hm).2.2.2.1
      rw [this]
      intro e
      have hlt : ∀ a : Byte, (oct (a.toNat / 4)).toNat < 64 := by decide +kernel
      cases ha with
      | short h => have := hlt (by assumption); simp only [sapiOf] at e; rw [← e] at hs; exact absurd hs (by have := hlt ‹_›; omega)
      | long h => simp only [sapiOf] at e; rw [← e] at hs; exact absurd hs (by rename_i a b; have := hlt a; omega)
    · rw [receive_incomplete li' hn rc] at hr
      obtain rfl := Except.ok.inj hr
      simp at hm

/-- C80 (partial): SAPIs up to 63 are usable: after `lapd_sap_start` a frame addressed to the SAP is
handed to its data link -/
theorem C80_usable_partial (li : Li) (hk : li.profile.k.length = 64) (h : Hdr) (hv : h.Valid)
    (ht : h.tei ≠ 127) (hn : lookup li (oct h.tei) (oct h.sapi) = none) (payload : List Byte)
    (hlen : payload.length ≤ li.profile.n201) (rc rc' : Int) :
    ∃ (li' : Li) (p : Sap), sapStart li (oct h.tei) (oct h.sapi) rc = .ok (li', rc, [.dlReq .est p.id []])
      ∧ ∃ li'' l, receive li' (h.octets ++ payload) rc'
          = .ok ⟨li'', rc', none, [.pcap false (h.octets ++ payload), .phDataInd l payload]⟩
        ∧ l.dl = p.id ∧ Carries l h := by
  obtain ⟨li', p, h1, h2, -, -, -, h5, -, -, h8, h9⟩ := C52_start_new li hk (oct h.tei) (oct h.sapi) rc hn
  refine ⟨li', p, h1, ?_⟩
  have hself : lookup li' (oct h.tei) (oct h.sapi) = some p := by rw [h8]; simp
  have hprof : li'.profile = li.profile := by
    unfold sapStart at h1
    cases he : teipFromTei li (oct h.tei) with
    | none =>
      obtain ⟨p', hp', -⟩ := sapAlloc_ok (teiAlloc li (oct h.tei)) hk (oct h.tei) (oct h.sapi)
      simp only [he, sapStartOn, sapFind, List.find?_nil, hp', bind_ok] at h1
      have := (Prod.mk.inj (Except.ok.inj h1)).1
      rw [← this]; rfl
    | some e =>
      rw [lookup_of_teip he] at hn
      obtain ⟨p', hp', -⟩ := sapAlloc_ok li hk (oct h.tei) (oct h.sapi)
      simp only [he, sapStartOn, hn, hp', bind_ok] at h1
      have := (Prod.mk.inj (Except.ok.inj h1)).1
      rw [← this]
  obtain ⟨li'', p', l, e1, e2, -, e4, e5⟩ := receive_hdr li' (by rw [hprof]; exact hk) h hv ht
    ((h9 _).2 (Or.inr rfl)) false (by simp) payload rc'
    (by intro q hq; rw [hself] at hq; cases hq; rw [h5]; exact hlen)
    (by intro hx; rw [hself] at hx; cases hx)
  refine ⟨li'', l, e1, ?_, e2⟩
  have hid : li'' = li' := by
    have hp := parseHeader_long h hv payload
    have hrec := receive_some li' hp (payload := payload) (by simp) rc'
    simp only [Bool.false_eq_true, if_false] at e1
    rw [hrec] at e1
    obtain ⟨c1, c2, -⟩ := carries_lctxOf h
    rcases receiveBody_cases li' (by rw [hprof]; exact hk) (lctxOf h) payload rc' with
      ⟨hx, q, -, e⟩ | ⟨-, -, e⟩ | ⟨-, -, li3, q, -, -, hor, ⟨-, e⟩ | ⟨-, e⟩⟩ <;> rw [e, bind_ok] at e1
    · exact absurd hx (lctxOf_ne_127 h hv ht)
    · have := congrArg (fun r : Rx => r.acts) (Except.ok.inj e1)
      simp at this
    · have := congrArg (fun r : Rx => r.acts) (Except.ok.inj e1)
      simp at this
    · have := congrArg (fun r : Rx => r.li) (Except.ok.inj e1)
      simp only at this
      rw [c1, c2, hself] at hor
      rcases hor with hx | rfl
      · cases hx
      · exact this.symm
  rw [hid, hself] at e5
  cases e5
  exact e4

-- both claims are about something
example : lookup exLi 3 200 = none ∧ 64 ≤ (200 : Byte).toNat ∧ lookup exLi (oct 9) (oct 62) = none := by
  decide +kernel

end Verif.Lapd
