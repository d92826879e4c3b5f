import Verif.Props.RtpSafe
import Verif.Props.TrauClass
import Verif.Props.TrauFrame
/-!
# C74: RTP → TRAU frame → bits on the wire → TRAU frame → RTP
-/
namespace Verif.RtpConv
open Verif Verif.Trau Verif.Spec.Trau Verif.Spec.Rtp
open Verif.RaaPrime (bind_ok bind_err)
set_option maxRecDepth 10000

/-! ### the requested time alignment is not touched by the conversion -/

def Post {α : Type} (P : α → Prop) (x : M α) : Prop := ∀ a, x = .ok a → P a
theorem Post.bind {α β : Type} {P : β → Prop} {x : M α} {f : α → M β} (h : ∀ a, Post P (f a)) : Post P (x >>= f) := by
  intro b hb
  cases x with
  | error e => cases hb
  | ok a => exact h a b hb
theorem Post.ok {α : Type} {P : α → Prop} {a : α} (h : P a) : Post P (.ok a) := by
  intro b hb; cases hb; exact h
theorem Post.ite {α : Type} {P : α → Prop} {c : Prop} [Decidable c] {x y : M α} (h1 : Post P x) (h2 : Post P y) :
    Post P (if c then x else y) := by
  split
  · exact h1
  · exact h2

theorem rtp2trau_ta (K : Codec) (st : State) (tf : Frame) (data : List Byte) :
    Post (fun r => r.2.ta = tf.ta) (rtp2trau K st tf data) := by
  unfold rtp2trau
  split
  · unfold rtp2trauFr
    dsimp only
    repeat first
      | exact Post.ok rfl
      | refine Post.ite ?_ ?_
      | refine Post.bind fun _ => ?_
      | split
  · unfold rtp2trauEfr
    dsimp only
    repeat first
      | exact Post.ok rfl
      | refine Post.ite ?_ ?_
      | refine Post.bind fun _ => ?_
      | split
  · unfold rtp2trauHr16
    dsimp only
    repeat first
      | exact Post.ok rfl
      | refine Post.ite ?_ ?_
      | refine Post.bind fun _ => ?_
      | split
  · unfold rtp2trauDataFr
    repeat first
      | exact Post.ok rfl
      | refine Post.ite ?_ ?_
      | refine Post.bind fun _ => ?_
      | split
  · unfold rtp2trauDataHr16
    repeat first
      | exact Post.ok rfl
      | refine Post.bind fun _ => ?_
      | split
  · unfold rtp2trauEdata
    repeat first
      | exact Post.ok rfl
      | refine Post.bind fun _ => ?_
      | split
  · unfold rtp2trauHr8
    repeat first
      | exact Post.ok rfl
      | refine Post.ite ?_ ?_
      | refine Post.bind fun _ => ?_
      | split
  · unfold rtp2trauDataHr8
    repeat first
      | exact Post.ok rfl
      | refine Post.bind fun _ => ?_
      | split
  · exact Post.ok rfl

/-! ### over the wire -/

theorem decode16_wf {f f' : Frame} {b : List Bool} {dir : Dir} {rc : Int} (hf : f.WF) (hb : b.length = 320)
    (h : decode16k f b dir = .ok (rc, f')) : f'.WF := by
  by_cases ho : (b.drop 17).take 5 ∈ [code .oam .ul, code .oam .dl]
  · rw [C64_oam_violated f b dir hf hb ho] at h; cases h
  · obtain ⟨rc', f'', h1, _, _, h2, _⟩ := C29_classify f b dir hf (by omega) (fun h => absurd h ho)
    rw [h] at h1
    cases h1
    exact h2

/-- 16k frames over the wire -/
theorem wire16 (f f0 : Frame) (b : List Bool) (hf : f.WF) (h0 : f0.WF) (ht : f.type ∈ roundTrip16)
    (hb : minBits f.type ≤ b.length) (hta : TaOk f) :
    ∃ rc e f', encode b f = .ok (rc, e) ∧ 0 < rc ∧ decode16k f0 (e.take 320) f.dir = .ok (0, f') ∧ f'.WF ∧ f'.type = f.type ∧
      f'.dir = f.dir ∧ payload f.type 5 f' = payload f.type 5 f := by
  obtain ⟨rc, e, f', h1, h2, h3, h4, h5, h6, _, h7⟩ := C23_roundtrip f f0 b hf h0 ht hb hta
  exact ⟨rc, e, f', h1, h2, h4, decode16_wf h0 h3.1 h4, h5, h6, h7⟩

theorem drop_take_get {α : Type} {l l' : List α} {k n i : Nat} (h : (l'.take n).drop k = (l.take n).drop k) (hk : k ≤ i) (hn : i < n) :
    l'[i]? = l[i]? := by
  have := congrArg (·[i - k]?) h
  simp only [List.getElem?_drop, Nat.add_sub_cancel' hk, List.getElem?_take_of_lt hn] at this
  exact this

/-- what arrives: the bits of a frame sent and the structure decoded from them (16k) -/
def Over16 (b : List Bool) (f0 tf f' : Frame) : Prop :=
  ∃ rc e, encode b tf = .ok (rc, e) ∧ 0 < rc ∧ decode16k f0 (e.take 320) tf.dir = .ok (0, f')

/-- … and the same for 8k frames -/
def Over8 (b : List Bool) (f0 tf f' : Frame) : Prop :=
  ∃ rc e, encode b tf = .ok (rc, e) ∧ 0 < rc ∧ decode8k f0 (e.take 160) tf.dir = .ok (0, f')

/-- **C74 (full rate)** An RTP payload converted to an up-link TRAU frame, encoded, decoded from the bits on the wire and converted
back is the same payload, octet for octet. -/
theorem C74_fr (K : Codec) (st st' : State) (hst : st.type = .fr) (hst' : st'.twts001 = false) {tf f0 : Frame} (h : tf.WF) (h0 : f0.WF)
    (hul : tf.dir = .ul) (hta : TaOk tf) {pl : List Byte} {s : List Bool} (hp : IsFr pl s) {b : List Bool} (hb : 639 ≤ b.length)
    {out : List Byte} (ho : 33 ≤ out.length) :
    ∃ tf' f', rtp2trau K st tf pl = .ok (0, tf') ∧ Over16 b f0 tf' f' ∧ trau2rtp K st' out f' = .ok (33, pl ++ out.drop 33) := by
  have he := rtp2trauFr_eq K h (strip_fr hp) hp
  have e : rtp2trau K st tf pl = rtp2trauFr K tf pl := by rw [rtp2trau, hst]
  have he := e.trans he
  have hwf := frFrame_WF K h (a := false) (b := false) (c := false) (pl := pl) hp.nspeech
  obtain ⟨rc, e, f', w1, w2, w3, w4, w5, w6, w7⟩ := wire16 _ f0 b hwf h0 (by dsimp only; decide) hb
    (by exact hta)
  refine ⟨_, f', he, ⟨rc, e, w1, w2, w3⟩, ?_⟩
  simp only [payload, nC, nD, Prod.mk.injEq] at w7
  have hc := drop_take_get (i := 11) w7.1 (by decide) (by decide)
  have hd := w7.2.1
  rw [List.take_left' (reverse_fr_length hp.nspeech)] at hd
  obtain ⟨pl', h1, h2⟩ := C32_trau2rtp K st' hst' w4 w5 (by rw [hc, hul]; rfl) ho
  rw [h2]
  rw [hd, reverseEach_reverseEach _ _ (by rw [hp.nspeech]; decide)] at h1
  rw [IsFr.unique h1 hp]

theorem efrSpeech_take (d d' : List Bool) (h : d.take 260 = d'.take 260) : efrSpeechBits d = efrSpeechBits d' := by
  have key : ∀ i n, i + n ≤ 260 → (d.drop i).take n = (d'.drop i).take n := by
    intro i n hi
    have := congrArg (fun l => (l.drop i).take n) h
    simp only [List.drop_take, List.take_take] at this
    rw [Nat.min_eq_left (by omega)] at this
    exact this
  unfold efrSpeechBits
  rw [key 1 38 (by decide), key 42 53 (by decide), key 98 50 (by decide), key 151 53 (by decide), key 207 50 (by decide)]

theorem efrChecks_take (d d' : List Bool) (h : d.take 260 = d'.take 260) : EfrChecksOk d → EfrChecksOk d' := by
  intro hg blk hb
  have hp : ∀ i < 260, d.getD i false = d'.getD i false := by
    intro i hi
    have := congrArg (·[i]?) h
    simp only [List.getElem?_take_of_lt hi] at this
    rw [List.getD_eq_getElem?_getD, this, ← List.getD_eq_getElem?_getD]
  have hr : ∀ blk ∈ efrBlocks, (∀ i ∈ efrProtPos blk, i < 260) ∧ ∀ i ∈ efrChkPos blk, i < 260 := by decide +kernel
  have e1 : pick d (efrProtPos blk) = pick d' (efrProtPos blk) := List.map_congr_left fun i hi => hp i ((hr blk hb).1 i hi)
  have e2 : pick d (efrChkPos blk) = pick d' (efrChkPos blk) := List.map_congr_left fun i hi => hp i ((hr blk hb).2 i hi)
  have := hg blk hb
  rwa [e1, e2] at this

/-- **C74 (enhanced full rate)** -/
theorem C74_efr (K : Codec) (st st' : State) (hst : st.type = .efr) (hst' : st'.twts001 = false) {tf f0 : Frame} (h : tf.WF) (h0 : f0.WF)
    (hul : tf.dir = .ul) (hta : TaOk tf) {pl : List Byte} {s : List Bool} (hp : IsEfr pl s) {b : List Bool} (hb : 639 ≤ b.length)
    {out : List Byte} (ho : 31 ≤ out.length) :
    ∃ tf' f', rtp2trau K st tf pl = .ok (0, tf') ∧ Over16 b f0 tf' f' ∧ trau2rtp K st' out f' = .ok (31, pl ++ out.drop 31) := by
  obtain ⟨tf', h1, h2, h3, h4, _, h6, h7, h8⟩ := rtp2trauEfr_all K st hst h hp (strip_efr hp)
  have hta' : TaOk tf' := by
    have := rtp2trau_ta K st tf pl _ h1
    unfold TaOk; rw [this]; exact hta
  obtain ⟨rc, e, f', w1, w2, w3, w4, w5, w6, w7⟩ := wire16 tf' f0 b h2 h0 (by rw [h3]; decide) (by rw [h3]; exact hb) hta'
  refine ⟨tf', f', h1, ⟨rc, e, w1, w2, w3⟩, ?_⟩
  rw [h3] at w7
  simp only [payload, nC, nD, Prod.mk.injEq] at w7
  have hc := drop_take_get (i := 11) w7.1 (by decide) (by decide)
  obtain ⟨pl', h9, h10⟩ := (C33_trau2rtp K st' hst' w4 (w5.trans h3) (by rw [hc, h8, hul]; rfl) ho).1
    (efrChecks_take _ _ w7.2.1.symm h6)
  rw [efrSpeech_take _ _ w7.2.1, h7] at h9
  rw [h10, IsEfr.unique h9 hp]

/-- **C74 (half rate, 16k)** -/
theorem C74_hr16 (K : Codec) (hK : K.Sane) (st st' : State) (hst : st.type = .hr) (hst' : st'.twts002 = false) {tf f0 : Frame} (h : tf.WF)
    (h0 : f0.WF) (hul : tf.dir = .ul) (hta : TaOk tf) {data pl : List Byte} (hp : pl.length = 14)
    (hdata : data = pl ∨ ∃ x, data = x :: pl) {b : List Bool} (hb : 639 ≤ b.length) {out : List Byte} (ho : 15 ≤ out.length) :
    ∃ tf' f', rtp2trau K st tf data = .ok (0, tf') ∧ Over16 b f0 tf' f' ∧ trau2rtp K st' out f' = .ok (15,
      (if K.hrCheckSid pl then 0x20 :: K.hrSidReset pl else 0x00 :: pl) ++ out.drop 15) := by
  obtain ⟨tf', h1, h2, h3, h4, h5, h6, h7, h8⟩ := C34_rtp2trau_16k K st hst h ⟨hp, rfl⟩ hdata
  obtain ⟨h9, h10, h11⟩ := h8 hul
  have hta' : TaOk tf' := by
    have := rtp2trau_ta K st tf data _ h1
    unfold TaOk; rw [this]; exact hta
  obtain ⟨rc, e, f', w1, w2, w3, w4, w5, w6, w7⟩ := wire16 tf' f0 b h2 h0 (by rw [h3]; decide) (by rw [h3]; exact hb) hta'
  refine ⟨tf', f', h1, ⟨rc, e, w1, w2, w3⟩, ?_⟩
  rw [h3] at w7
  simp only [payload, nC, nD, nT, nS, nM, hasCrc, Prod.mk.injEq] at w7
  obtain ⟨v1, v2, _, _, _, v3, _⟩ := w7
  simp only [true_or, decide_true, if_true] at v3
  have g : ∀ i, 5 ≤ i → i < 21 → f'.c[i]? = tf'.c[i]? := fun i a b => drop_take_get v1 a b
  have v44 : f'.d.take 44 = tf'.d.take 44 := by
    have := congrArg (List.take 44) v2
    simpa [List.take_take] using this
  obtain ⟨pl', h12, h13, h14, _⟩ := C34_trau2rtp_16k K hK st' hst' w4 (w5.trans h3) ((g 11 (by decide) (by decide)).trans h9)
    ((g 12 (by decide) (by decide)).trans h10) ((g 13 (by decide) (by decide)).trans h11) ho
  rw [v2, h5] at h12
  have := IsHr.unique h12 ⟨hp, rfl⟩
  subst this
  rw [← v44, ← v3] at h6
  cases hk : K.hrCheckSid pl'
  · rw [hk] at h13; rw [h13 ⟨h6, rfl, rfl, rfl⟩]; rfl
  · rw [hk] at h14; rw [h14 ⟨h6, rfl, rfl, rfl⟩]; rfl

theorem decode8_wf {f f' : Frame} {b : List Bool} {dir : Dir} {rc : Int} (hf : f.WF) (hb : b.length = 160)
    (h : decode8k f b dir = .ok (rc, f')) : f'.WF := by
  rcases Classical.em (Shows b sync67) with ho | ho
  · rw [C64_amr67_violated f b dir hf hb ho] at h; cases h
  · obtain ⟨rc', f'', h1, _, _, h2, _⟩ := C69_classify8 f b dir hf (by omega) (fun h => absurd h ho)
    rw [h] at h1
    cases h1
    exact h2

theorem enc_len {b e : List Bool} {f : Frame} {rc : Int} (h : encode b f = .ok (rc, e)) (hf : f.WF) (hta : TaOk f) : e.length = b.length := by
  obtain ⟨rc', e', h1, h2, _⟩ := C27_encode_buffer f b hf hta
  rw [h] at h1
  cases h1
  exact h2

/-- **C74 (half rate, 8k)** down-link -/
theorem C74_hr8 (K : Codec) (hK : K.Sane) (st st' : State) (hst : st.type = .speech8) (hst' : st'.twts002 = false) {tf f0 : Frame} (h : tf.WF)
    (h0 : f0.WF) (hdl : tf.dir = .dl) (hta : TaOk tf) {data pl : List Byte} (hp : pl.length = 14)
    (hdata : data = pl ∨ ∃ x, data = x :: pl) {b : List Bool} (hb : 319 ≤ b.length) {out : List Byte} (ho : 15 ≤ out.length) :
    ∃ tf' f', rtp2trau K st tf data = .ok (0, tf') ∧ Over8 b f0 tf' f' ∧ trau2rtp K st' out f' = .ok (15,
      (if K.hrCheckSid pl then 0x20 :: K.hrSidReset pl else 0x00 :: pl) ++ out.drop 15) := by
  obtain ⟨tf', h1, h2, h3, h4, h5, h6, h7, h8⟩ := C34_rtp2trau_8k K st hst h ⟨hp, rfl⟩ hdata hdl
  have hta' : TaOk tf' := by
    have := rtp2trau_ta K st tf data _ h1
    unfold TaOk; rw [this]; exact hta
  have hb' : minBits tf'.type ≤ b.length := by rw [h3]; exact hb
  obtain ⟨rc, e, f', w1, w2, w3, w5, w6, w7, _⟩ := C25_roundtrip tf' f0 b h2 h0 (by rw [h3]; decide)
    (by unfold Code8Ok; rw [h3]; trivial) hb' hta'
  have hel : (e.take 160).length = 160 := by
    rw [List.length_take, enc_len w1 h2 hta']; omega
  have w4 := decode8_wf h0 hel w3
  refine ⟨tf', f', h1, ⟨rc, e, w1, w2, w3⟩, ?_⟩
  have w7 := (w7 h3).2
  rw [h3] at w7
  simp only [payload, nC, nD, nT, nS, nM, nXC, hasCrc, Prod.mk.injEq] at w7
  obtain ⟨v1, v2, _, _, _, v3, _, v4⟩ := w7
  simp only [or_true, decide_true, if_true] at v3
  rw [List.take_of_length_le (by rw [w4.xc]; decide), List.take_of_length_le (by rw [h2.xc]; decide)] at v4
  have v44 : f'.d.take 44 = tf'.d.take 44 := by
    have := congrArg (List.take 44) v2
    simpa [List.take_take] using this
  obtain ⟨pl', h12, h13, h14, _⟩ := C34_trau2rtp_8k K hK st' hst' w4 (w5.trans h3) ho
  rw [v2, h5] at h12
  have := IsHr.unique h12 ⟨hp, rfl⟩
  subst this
  rw [← v44, ← v3] at h6
  rw [← v4] at h7
  cases hk : K.hrCheckSid pl'
  · rw [hk] at h7; rw [h13 ⟨h6, h7⟩]; rfl
  · rw [hk] at h7; rw [h14 ⟨h6, h7⟩]; rfl

theorem group_take {d d' : List Bool} {n : Nat} (h : d.take n = d'.take n) {k : Nat} (hk : 63 * k + 63 ≤ n) : group 63 d k = group 63 d' k := by
  unfold group
  have := congrArg (fun l => (l.drop (63 * k)).take 63) h
  simp only [List.drop_take, List.take_take] at this
  rwa [Nat.min_eq_left (by omega)] at this

/-- **C74 (full rate data, 8 kbit/s intermediate rate)** -/
theorem C74_data8 (K : Codec) (st st' : State) (hst : st.type = .data) (hir : st.interm16k = false) {tf f0 : Frame} (h : tf.WF)
    (h0 : f0.WF) (hta : TaOk tf) {pl : List Byte} {x y : List Bool} (hp : Carries8 pl [x, y]) {b : List Bool} (hb : 320 ≤ b.length)
    {out : List Byte} (ho : 160 ≤ out.length) :
    ∃ tf' f', rtp2trau K st tf pl = .ok (0, tf') ∧ Over16 b f0 tf' f' ∧ trau2rtp K st' out f' = .ok (160, pl ++ out.drop 160) := by
  obtain ⟨tf', h1, h2, h3, _, h4, _, h5, _, hc⟩ := C35_rtp2trau_data8 K st hst hir h pl
  obtain ⟨e1, e2⟩ := rx_carries8 hp
  have hta' : TaOk tf' := by
    have := rtp2trau_ta K st tf pl _ h1
    unfold TaOk; rw [this]; exact hta
  obtain ⟨rc, e, f', w1, w2, w3, w4, w5, w6, w7⟩ := wire16 tf' f0 b h2 h0 (by rw [h3]; decide) (by rw [h3]; exact hb) hta'
  refine ⟨tf', f', h1, ⟨rc, e, w1, w2, w3⟩, ?_⟩
  rw [h3] at w7
  simp only [payload, nC, nD, Prod.mk.injEq] at w7
  have h6 : f'.c[5]? = some false := by
    rw [drop_take_get (i := 5) w7.1 (by decide) (by decide), ← List.getElem?_take_of_lt (i := 5) (j := 15) (by decide), hc]
    cases tf.dir <;> rfl
  obtain ⟨pl', h6, h7⟩ := C35_trau2rtp_data8 K st' w4 (w5.trans h3) h6 ho
  rw [group_take w7.2.1 (k := 0) (by decide), group_take w7.2.1 (k := 2) (by decide), h4, h5, e1, e2] at h6
  rw [h7, Carries8.unique h6 hp]

/-- **C74 (half rate data)** -/
theorem C74_dataHr (K : Codec) (st st' : State) (hst : st.type = .dataHr) {tf f0 : Frame} (h : tf.WF)
    (h0 : f0.WF) (hta : TaOk tf) {pl : List Byte} {x y : List Bool} (hp : Carries8 pl [x, y]) {b : List Bool} (hb : 320 ≤ b.length)
    {out : List Byte} (ho : 160 ≤ out.length) :
    ∃ tf' f', rtp2trau K st tf pl = .ok (0, tf') ∧ Over16 b f0 tf' f' ∧ trau2rtp K st' out f' = .ok (160, pl ++ out.drop 160) := by
  obtain ⟨tf', h1, h2, h3, _, h4, h5, _⟩ := C35_rtp2trau_hr K st (.inl hst) h pl
  rw [hst] at h3
  obtain ⟨e1, e2⟩ := rx_carries8 hp
  have hta' : TaOk tf' := by
    have := rtp2trau_ta K st tf pl _ h1
    unfold TaOk; rw [this]; exact hta
  obtain ⟨rc, e, f', w1, w2, w3, w4, w5, w6, w7⟩ := wire16 tf' f0 b h2 h0 (by rw [h3]; decide) (by rw [h3]; exact hb) hta'
  refine ⟨tf', f', h1, ⟨rc, e, w1, w2, w3⟩, ?_⟩
  rw [h3] at w7
  simp only [payload, nC, nD, Prod.mk.injEq] at w7
  obtain ⟨pl', h6, h7⟩ := C35_trau2rtp_hr K st' w4 (.inl (w5.trans h3)) ho
  rw [group_take w7.2.1 (k := 0) (by decide), group_take w7.2.1 (k := 1) (by decide), h4, h5, e1, e2] at h6
  rw [h7, Carries8.unique h6 hp]

/-- **C74 (data on 8k sub-slots)** -/
theorem C74_data8k (K : Codec) (st st' : State) (hst : st.type = .data8) {tf f0 : Frame} (h : tf.WF)
    (h0 : f0.WF) (hta : TaOk tf) {pl : List Byte} {x y : List Bool} (hp : Carries8 pl [x, y]) {b : List Bool} (hb : 160 ≤ b.length)
    {out : List Byte} (ho : 160 ≤ out.length) :
    ∃ tf' f', rtp2trau K st tf pl = .ok (0, tf') ∧ Over8 b f0 tf' f' ∧ trau2rtp K st' out f' = .ok (160, pl ++ out.drop 160) := by
  obtain ⟨tf', h1, h2, h3, hdir, h4, h5, hc⟩ := C35_rtp2trau_hr K st (.inr hst) h pl
  rw [hst] at h3
  rw [if_pos hst] at hc
  obtain ⟨e1, e2⟩ := rx_carries8 hp
  have hta' : TaOk tf' := by
    have := rtp2trau_ta K st tf pl _ h1
    unfold TaOk; rw [this]; exact hta
  have hb' : minBits tf'.type ≤ b.length := by rw [h3]; exact hb
  obtain ⟨rc, e, f', w1, w2, w3, w5, w6, _, w7⟩ := C25_roundtrip tf' f0 b h2 h0 (by rw [h3]; decide)
    (by
      unfold Code8Ok; rw [h3]
      cases tf'.dir
      · exact hc
      · have := congrArg (List.take 3) hc
        simpa [List.take_take] using this) hb' hta'
  have hel : (e.take 160).length = 160 := by
    rw [List.length_take, enc_len w1 h2 hta']; omega
  have w4 := decode8_wf h0 hel w3
  refine ⟨tf', f', h1, ⟨rc, e, w1, w2, w3⟩, ?_⟩
  have w7 := w7 (by rw [h3]; decide)
  rw [h3] at w7
  simp only [payload, nC, nD, Prod.mk.injEq] at w7
  obtain ⟨pl', h6, h7⟩ := C35_trau2rtp_hr K st' w4 (.inr (w5.trans h3)) ho
  rw [group_take w7.2.1 (k := 0) (by decide), group_take w7.2.1 (k := 1) (by decide), h4, h5, e1, e2] at h6
  rw [h7, Carries8.unique h6 hp]

theorem Carries16.unique {a b : List Byte} {xs : List (List Bool)} (ha : Carries16 a xs) (hb : Carries16 b xs) : a = b := by
  have hl : a.length = b.length := by rw [ha.len, hb.len]
  have hl16 : ∀ l : List Byte, (bits16 l).length = 2 * l.length := by
    intro l; induction l with
    | nil => rfl
    | cons x l ih => simp only [bits16, List.flatMap_cons, List.length_append, List.length_cons, List.length_nil] at ih ⊢; omega
  have hbits : bits16 a = bits16 b := by
    apply List.ext_getElem?
    intro i
    by_cases hi : i < 80 * xs.length
    · have hk : i / 80 < xs.length := by omega
      have e1 := v110Frame_unique (ha.frames _ hk).1
      have e2 := v110Frame_unique (hb.frames _ hk).1
      rw [(ha.frames _ hk).2] at e1
      rw [(hb.frames _ hk).2] at e2
      have e3 := congrArg (·[i % 80]?) (e1.symm.trans e2)
      simp only [group, List.getElem?_take_of_lt (Nat.mod_lt i (show 0 < 80 by decide)), List.getElem?_drop, Nat.div_add_mod] at e3
      exact e3
    · rw [List.getElem?_eq_none (by rw [hl16, ha.len]; omega), List.getElem?_eq_none (by rw [hl16, hb.len]; omega)]
  have key : ∀ (a b : List Byte), a.length = b.length → bits16 a = bits16 b → (∀ o ∈ a, ∀ i < 6, o.getLsbD i = true) →
      (∀ o ∈ b, ∀ i < 6, o.getLsbD i = true) → a = b := by
    intro a
    induction a with
    | nil => intro b h _ _ _; cases b with
      | nil => rfl
      | cons _ _ => simp at h
    | cons x a ih =>
      intro b h hbits h1 h2
      cases b with
      | nil => simp at h
      | cons y b =>
        simp only [bits16, List.flatMap_cons, List.cons_append, List.nil_append, List.cons.injEq] at hbits
        rw [ih b (by simpa using h) hbits.2.2 (fun o ho => h1 o (by simp [ho])) (fun o ho => h2 o (by simp [ho]))]
        congr 1
        refine ext_bits (n := 6) ?_ (h1 x (by simp)) (h2 y (by simp))
        intro i hi hi'
        rcases (show i = 6 ∨ i = 7 by omega) with rfl | rfl
        · exact hbits.2.1
        · exact hbits.1
  exact key a b hl hbits ha.rest hb.rest

/-- **C74 (full rate data, 16 kbit/s intermediate rate)** -/
theorem C74_data16 (K : Codec) (st st' : State) (hst : st.type = .data) (hir : st.interm16k = true) {tf f0 : Frame} (h : tf.WF)
    (h0 : f0.WF) (hta : TaOk tf) {pl : List Byte} {x y z w : List Bool} (hp : Carries16 pl [x, y, z, w]) {b : List Bool}
    (hb : 320 ≤ b.length) {out : List Byte} (ho : 160 ≤ out.length) :
    ∃ tf' f', rtp2trau K st tf pl = .ok (0, tf') ∧ Over16 b f0 tf' f' ∧ trau2rtp K st' out f' = .ok (160, pl ++ out.drop 160) := by
  obtain ⟨tf', h1, h2, h3, _, h4, hc⟩ := C35_rtp2trau_data16 K st hst hir h pl
  have er := rx_carries16 rfl hp
  have hta' : TaOk tf' := by
    have := rtp2trau_ta K st tf pl _ h1
    unfold TaOk; rw [this]; exact hta
  obtain ⟨rc, e, f', w1, w2, w3, w4, w5, w6, w7⟩ := wire16 tf' f0 b h2 h0 (by rw [h3]; decide) (by rw [h3]; exact hb) hta'
  refine ⟨tf', f', h1, ⟨rc, e, w1, w2, w3⟩, ?_⟩
  rw [h3] at w7
  simp only [payload, nC, nD, Prod.mk.injEq] at w7
  have h6 : f'.c[5]? = some true := by
    rw [drop_take_get (i := 5) w7.1 (by decide) (by decide), ← List.getElem?_take_of_lt (i := 5) (j := 15) (by decide), hc]
    cases tf.dir <;> rfl
  obtain ⟨pl', h6, h7⟩ := C35_trau2rtp_data16 K st' w4 (w5.trans h3) h6 ho
  rw [group_take w7.2.1 (k := 0) (by decide), group_take w7.2.1 (k := 1) (by decide), group_take w7.2.1 (k := 2) (by decide),
    group_take w7.2.1 (k := 3) (by decide), h4 0 (by decide), h4 1 (by decide), h4 2 (by decide), h4 3 (by decide), er 0 (by decide),
    er 1 (by decide), er 2 (by decide), er 3 (by decide)] at h6
  rw [h7, Carries16.unique h6 hp]

/-! ### concrete cases -/

example : TaOk (Frame0 .ul) := by unfold TaOk; decide
/-- the whole way of a full rate payload, computed -/
example : (do
    let r ← rtp2trau K0 (stFr false) (Frame0 .ul) exFr
    let w ← encode (List.replicate 640 true) r.2
    let f ← decode16k (Frame0 .dl) (w.2.take 320) .ul
    trau2rtp K0 (stFr false) (List.replicate 40 0x55) f.2) = .ok (33, exFr ++ List.replicate 7 0x55) := by decide +kernel
/-- … and of a half rate payload on an 8k sub-slot -/
example : (do
    let r ← rtp2trau K0 ⟨.speech8, false, false, false⟩ (Frame0 .dl) (exFr.take 14)
    let w ← encode (List.replicate 640 true) r.2
    let f ← decode8k (Frame0 .dl) (w.2.take 160) .dl
    trau2rtp K0 ⟨.speech8, false, false, false⟩ (List.replicate 15 0x55) f.2) = .ok (15, 0 :: exFr.take 14) := by decide +kernel

end Verif.RtpConv
