import Verif.Spec.LineError
import Verif.Props.ShapingPair32
import Verif.Props.CodecError32
import Verif.Props.TimeError32
import Verif.Lemmas.FinDequant
/-!
# C108: from samples to samples in binary32, with the error of the quantiser

`C99`, `C107` and `C103` put together, for frames without temporal noise shaping.
-/

namespace Lc3
open Scalar Spec Tables

theorem tnsOrder_zero_of_mem {l : List ℕ} {ls : List (List ℕ)} {n : ℕ} (hl : l ∈ ls)
    (h : ∀ o ∈ ls.map tnsOrder ++ List.replicate n 0, o = 0) : tnsOrder l = 0 :=
  h _ (List.mem_append_left _ (List.mem_map_of_mem hl))

variable {α : Type} [Scalar α]

/-- filters of order zero leave the lines alone (encoder) -/
theorem tnsFilterLoop_off : ∀ (bands : List (ℕ × ℕ)) (rcs : List (List α)) (lines st : List α), (∀ r ∈ rcs, r = []) →
    tnsFilterLoop bands rcs lines st = .ok lines
  | [], _, lines, _, _ => by rw [tnsFilterLoop]; simp
  | (a, b) :: bands, [], lines, _, _ => by rw [tnsFilterLoop]; simp
  | (a, b) :: bands, rc :: rcs, lines, st, h => by
    rw [tnsFilterLoop, h rc (by simp)]
    simp only [List.length_nil, ne_eq, not_true_eq_false, if_false]
    exact tnsFilterLoop_off bands rcs lines st fun r hr => h r (by simp [hr])

theorem tnsEncRun_off {cfg : Lc3Config} {x : List α} {bw nbits : ℕ} {nn : Bool} {r : TnsResult α} (h : tnsEncRun cfg x bw nbits nn = .ok r)
    (h0 : ∀ o ∈ r.rcOrder, o = 0) : r.lines = x := by
  unfold tnsEncRun at h
  split at h
  · cases h
  obtain ⟨p, -, h⟩ := bind_ok_inv h
  simp only at h
  obtain ⟨ints, -, h⟩ := bind_ok_inv h
  obtain ⟨bits, -, h⟩ := bind_ok_inv h
  obtain ⟨lines, e, h⟩ := bind_ok_inv h
  cases h
  rw [tnsFilterLoop_off] at e
  · exact (Res.ok.inj e).symm
  · intro r hr
    obtain ⟨l, hl, rfl⟩ := List.mem_map.1 hr
    rw [tnsOrder_zero_of_mem hl h0]
    simp

/-- filters of order zero leave the lines alone (decoder) -/
theorem tnsLoop_off (rc : List α) : ∀ (f : ℕ) (bands : List (ℕ × ℕ)) (orders : List ℕ) (lines st : List α), (∀ o ∈ orders, o = 0) →
    tnsLoop rc f bands orders lines st = .ok lines
  | _, [], _, lines, _, _ => by rw [tnsLoop]; simp
  | _, (a, b) :: bands, [], lines, _, _ => by rw [tnsLoop]; simp
  | f, (a, b) :: bands, o :: orders, lines, st, h => by
    rw [tnsLoop, h o (by simp)]
    simp only [gt_iff_lt, lt_irrefl, if_false]
    exact tnsLoop_off rc (f + 1) bands orders lines st fun r hr => h r (by simp [hr])

theorem tnsDecode_off {d : FrameDuration} {bw n : ℕ} {orders ints : List ℕ} {lines r : List α} (h0 : ∀ o ∈ orders, o = 0)
    (h : tnsDecode d bw n orders ints lines = .ok r) : r = lines := by
  unfold tnsDecode at h
  simp only at h
  split at h
  · cases h
  split at h
  · cases h
  rw [tnsLoop_off _ _ _ _ _ _ fun o ho => h0 o (List.mem_of_mem_take ho)] at h
  exact (Res.ok.inj h).symm

namespace F32

/-- **C108** (spectrum) Binary32, every configuration and channel state: take a coded frame of 16 bit samples without temporal noise shaping,
with all lines in the range of the quantiser and none but small lines cut off. There is one factor per band, at most `2 ^ 20`, such that every
line of the spectrum the decoder passes to its inverse transform differs from the line of the encoder's transform by at most the factor
times 0.33, 0.82, 1.14 or 0.64 steps (`stepsOff`: refined lines, other lines, noise, zeros), and `2 ^ -12 + δ + δ' + δδ'` of the line. -/
theorem C108 {checks : Bool} {el : Elem} (he : EncFunctions el) (hl : LogFunctions el) {δ δ' : ℝ} (hp : Powers el δ δ') (hδ : 0 ≤ δ)
    (hδ1 : δ ≤ 1 / 2) (hδ' : 0 ≤ δ') (hδ1' : δ' ≤ 1 / 2) {f : SamplingFrequency} {d : FrameDuration} {ch ch' : EncChannel F32} {x : List Int}
    {buf bytes : List Nat} {a : EncAnalysis F32} {s : EncSt} {t : Nat} (h : CodedFrame32 checks el f d ch x buf a s t)
    (hf : ∀ v ∈ ch.freq, |v| ≤ 2 ^ 15) (hx : ∀ v ∈ x, |v| ≤ 2 ^ 15) (hno : ∀ o ∈ a.p.rcOrder, o = 0)
    (hr : ∀ y ∈ a.lines, IsFin y ∧ |val y| ≤ (32767 + 1 / 2) * val a.gg)
    (hcut : ∀ k, a.p.lastnz ≤ k → |val (a.lines.getD k (fin 0))| < 5 / 8 * val a.gg)
    (hen : @encodeChannel F32 (scalar el) (Lc3Config.new f d) ch x buf = .ok (ch', bytes)) {dch dch' : DecChannel F32} (hd : ChInv f d dch)
    {out o : List Int} {res : DecResult} (hde : @decodeChannel F32 (scalar el) checks (Lc3Config.new f d) dch 16 bytes out = .ok (res, dch', o)) :
    ∃ (tab : List ℕ) (Γ : ℕ → ℝ), bandTable d (Lc3Config.new f d).fsInd = .ok tab ∧
      (∀ b k k', b < (Lc3Config.new f d).nb → InBand tab b k → InBand tab b k' → Γ k = Γ k') ∧
      ∀ k, k < (Lc3Config.new f d).ne → 0 < Γ k ∧ Γ k ≤ 2 ^ 20 ∧ IsFin (dch'.specLines.getD k (fin 0)) ∧ IsFin (a.mdct.getD k (fin 0)) ∧
        |val (dch'.specLines.getD k (fin 0)) - val (a.mdct.getD k (fin 0))| ≤
          (1 + δ + 1 / 2 ^ 14) * (Γ k * (stepsOff d a.p.bandwidthInd a.p.xq (min (encoderRoom buf.length s t) a.p.residual.length) k * val a.gg))
            + (δ + δ' + δ * δ' + 1 / 2 ^ 12) * |val (a.mdct.getD k (fin 0))| + 1 / 2 ^ 120 := by
  letI := scalar el
  have hspec : dch.specLines.length = (Lc3Config.new f d).ne := hd.spec
  obtain ⟨ch2, bytes2, si, ad, X, deq, c1, c2, c3, c4, c5, c6, c7, c8⟩ := C99 he.gain h hr (spec := dch.specLines) hspec
  rw [hen] at c1
  simp only [Res.ok.injEq, Prod.mk.injEq] at c1
  obtain ⟨rfl, rfl⟩ := c1
  -- the encoder
  have hpar := fun q => encAnalyse_params (q := q) h.inv h.analysed (C39_range el)
  obtain ⟨freq, L, eb, nn, bwInd, nbitsBw, attack, det, sns, tns, ltpf, pf, quant, spec, rs, nf, e1, e2, e3, e4, e5, e6, e7,
    e8, e9, e10, ha⟩ := encAnalyse_inv h.analysed
  have hfl : ch.freq.length = 2 * (Lc3Config.new f d).nf := by rw [h.inv.freq, Nat.mul_comm]
  have hLb := bd_mdctEncRun he.toAccurate hfl hf hx e1
  have hebb := bd_mdct_eb he.toAccurate hfl hf hx e1
  have hlines : a.lines = sns.x := by
    have h1 : a.p.rcOrder = tns.rcOrder := by rw [ha]
    have h2 : a.lines = tns.lines := by rw [ha]
    rw [h2]
    exact tnsEncRun_off e6 (by rw [← h1]; exact hno)
  have hmdct : a.mdct = L.take (Lc3Config.new f d).ne := by rw [ha]
  rw [← hmdct] at e5
  have hmb : ∀ v ∈ a.mdct, IsFin v ∧ |val v| ≤ 2 ^ 28 := by
    intro v hv
    rw [hmdct] at hv
    exact hLb v (List.mem_of_mem_take hv)
  have hml : a.mdct.length = (Lc3Config.new f d).ne := by rw [hmdct, List.length_take]; omega
  obtain ⟨q, tab, G, k1, k2, k3, k4, k5, k6⟩ := C107 he hl hp hδ hδ1 hδ' hδ1' hmb hebb e5 (p := a.p) (by rw [ha]) (by rw [ha]) (by rw [ha])
    (by rw [ha]) (by rw [ha]) (by rw [ha])
  obtain ⟨p1, p2⟩ := hpar q k1
  obtain ⟨_, _, bits, b1, b2, -⟩ := h.read (p1 h.gain) (p2 h.inside)
  rw [hen] at b1
  simp only [Res.ok.injEq, Prod.mk.injEq] at b1
  obtain ⟨rfl, rfl⟩ := b1
  rw [c2] at b2
  simp only [Res.ok.injEq, Prod.mk.injEq] at b2
  obtain ⟨rfl, rfl, rfl⟩ := b2
  -- the decoder
  have hz : specFromFrame (Lc3Config.new f d) dch.specLines (expectedSide a.p q)
      ⟨expectedOrders a.p, expectedTnsIdx a.p, bits, expectedSeed a.p, expectedZero a.p, 8 * buf.length⟩ (expectedX a.p) = .ok dch'.specLines := by
    unfold decodeChannel at hde
    rw [if_neg (by simp)] at hde
    obtain ⟨⟨lines, plc, info⟩, g1, hde⟩ := bind_ok_inv hde
    simp only at hde
    rw [if_neg (by simp [hd.freq])] at hde
    obtain ⟨⟨ola, fr⟩, -, hde⟩ := bind_ok_inv hde
    obtain ⟨⟨lt, fr'⟩, -, hde⟩ := bind_ok_inv hde
    simp only [Res.ok.injEq, Prod.mk.injEq] at hde
    obtain ⟨-, rfl, -⟩ := hde
    unfold decodeSpectrum at g1
    rw [c2] at g1
    simp only at g1
    obtain ⟨l, g2, g1⟩ := bind_ok_inv g1
    obtain ⟨pl, -, g1⟩ := bind_ok_inv g1
    simp only [Res.ok.injEq, Prod.mk.injEq] at g1
    rw [g2, g1.1]
  unfold specFromFrame at hz
  rw [c3, Res.bind_ok] at hz
  simp only at hz
  obtain ⟨w, w1, hz'⟩ := bind_ok_inv hz
  have hw := tnsDecode_off (by
    intro o ho
    unfold expectedOrders at ho
    rcases List.mem_append.1 ho with ho | ho
    · exact hno o (List.mem_of_mem_take ho)
    · exact List.eq_of_mem_replicate ho) w1
  subst hw
  have hfs : (Lc3Config.new f d).fsInd ≤ 4 := by cases f <;> cases d <;> decide
  have hdb : AllBd (2 ^ 36) w := by
    refine bd_dequantise he.toTame hfs hspec ?_ ?_ ?_ ?_ c3
    · have := h.len
      show 8 * buf.length < 2 ^ 31
      omega
    · exact h.gain
    · exact (p1 h.gain).noise
    · intro v hv
      unfold expectedX at hv
      rcases List.mem_append.1 hv with hv | hv
      · have := (p2 h.inside).range v hv
        omega
      · rw [List.eq_of_mem_replicate hv]
        norm_num
  obtain ⟨z1, z2⟩ := k6 w dch'.specLines (fun v hv => ⟨(hdb v hv).1, (hdb v hv).2.trans (by norm_num)⟩) hz'
  obtain ⟨-, -, -, -, tab', t1, t2, t3, t4, t5, t6⟩ := C23 f d
  rw [k2] at t1
  obtain rfl := Res.ok.inj t1
  have hex : ∃ Γ : ℕ → ℝ, ∀ b k, b < (Lc3Config.new f d).nb → InBand tab b k → Γ k = G b := by
    classical
    refine ⟨fun k => if hk : ∃ b, b < (Lc3Config.new f d).nb ∧ InBand tab b k then G hk.choose else 1, fun b k hb hk => ?_⟩
    have hk' : ∃ b, b < (Lc3Config.new f d).nb ∧ InBand tab b k := ⟨b, hb, hk⟩
    simp only [dif_pos hk']
    have hke : k < (Lc3Config.new f d).ne := by
      have hm : ∀ n, b + 1 + n ≤ (Lc3Config.new f d).nb → tab.getD (b + 1) 0 ≤ tab.getD (b + 1 + n) 0 := by
        intro n
        induction n with
        | zero => intro _; exact le_rfl
        | succ n ih => intro hn; exact (ih (by omega)).trans (t5 (b + 1 + n) (by omega)).le
      have h3 := hm ((Lc3Config.new f d).nb - (b + 1)) (by omega)
      rw [show b + 1 + ((Lc3Config.new f d).nb - (b + 1)) = (Lc3Config.new f d).nb by omega] at h3
      have h4 := t4
      have h5 := hk.2
      omega
    obtain ⟨b0, -, hu⟩ := t6 k hke
    rw [hu _ hk'.choose_spec.1 hk'.choose_spec.2, hu b hb hk]
  obtain ⟨Γ, hΓ⟩ := hex
  refine ⟨tab, Γ, k2, fun b k k' hb h1 h2 => by rw [hΓ b k hb h1, hΓ b k' hb h2], fun k hk => ?_⟩
  obtain ⟨b, ⟨hb, hbk⟩, -⟩ := t6 k hk
  rw [hΓ b k hb hbk]
  obtain ⟨g1, g2⟩ := k4 b hb
  have hkm : k < a.mdct.length := by omega
  have hks : k < sns.x.length := by rw [k3]; omega
  have hkw : k < w.length := by omega
  obtain ⟨u, u1, u2, -, u4⟩ := z2 b k _ _ _ hb hbk (List.getElem?_eq_getElem hkm) (List.getElem?_eq_getElem hks) (List.getElem?_eq_getElem hkw)
  have v1 : dch'.specLines.getD k (fin 0) = u := by rw [List.getD_eq_getElem?_getD, u1]; rfl
  have v2 : a.mdct.getD k (fin 0) = a.mdct[k] := getD_of_lt hkm
  have v3 : a.lines.getD k (fin 0) = sns.x[k] := by rw [hlines]; exact getD_of_lt hks
  have v4 : w.getD k (fin 0) = w[k] := getD_of_lt hkw
  rw [v1, v2]
  refine ⟨g1, g2, u2, (hmb _ (List.getElem_mem hkm)).1, u4.trans ?_⟩
  obtain ⟨-, m2⟩ := c8 k hk
  have hkeep : k < a.p.lastnz ∨ |val (a.lines.getD k (fin 0))| < 5 / 8 * val a.gg := by
    rcases Nat.lt_or_ge k a.p.lastnz with hc | hc
    · exact .inl hc
    · exact .inr (hcut k hc)
  obtain ⟨m3, m4⟩ := m2 _ _ rfl rfl hkeep
  rw [v3, v4] at m3 m4
  have herr : |val w[k] - val sns.x[k]| ≤
      stepsOff d a.p.bandwidthInd a.p.xq (min (encoderRoom buf.length s t) a.p.residual.length) k * val a.gg := by
    unfold stepsOff
    by_cases h0 : a.p.xq.getD k 0 = 0
    · rw [if_neg (by simpa using h0)]
      split
      · exact (m4 h0).1
      · exact (m4 h0).2 (by assumption)
    · rw [if_pos h0]
      split
      · exact (m3 h0).2 (by assumption)
      · exact (m3 h0).1
  have : (1 + δ + 1 / 2 ^ 14) * (G b * |val w[k] - val sns.x[k]|) ≤ (1 + δ + 1 / 2 ^ 14) * (G b *
      (stepsOff d a.p.bandwidthInd a.p.xq (min (encoderRoom buf.length s t) a.p.residual.length) k * val a.gg)) :=
    mul_le_mul_of_nonneg_left (mul_le_mul_of_nonneg_left herr g1.le) (by positivity)
  linarith

/-- the conditions of C108 on one frame: 16 bit samples without temporal noise shaping, all lines in the range of the quantiser and none but
small lines cut off -/
structure Plain (a : EncAnalysis F32) : Prop where
  noTns : ∀ o ∈ a.p.rcOrder, o = 0
  range : ∀ y ∈ a.lines, IsFin y ∧ |val y| ≤ (32767 + 1 / 2) * val a.gg
  cut : ∀ k, a.p.lastnz ≤ k → |val (a.lines.getD k (fin 0))| < 5 / 8 * val a.gg

/-- the steps of the quantiser a line of the frame may be off -/
noncomputable def offOf (d : FrameDuration) (a : EncAnalysis F32) (nbytes : ℕ) (s : EncSt) (t k : ℕ) : ℝ :=
  stepsOff d a.p.bandwidthInd a.p.xq (min (encoderRoom nbytes s t) a.p.residual.length) k

/-- the distance of the two spectra -/
theorem plain_dist {checks : Bool} {el : Elem} (he : EncFunctions el) (hl : LogFunctions el) {δ δ' : ℝ} (hp : Powers el δ δ') (hδ : 0 ≤ δ)
    (hδ1 : δ ≤ 1 / 2) (hδ' : 0 ≤ δ') (hδ1' : δ' ≤ 1 / 2) {f : SamplingFrequency} {d : FrameDuration} {ch ch' : EncChannel F32} {x : List Int}
    {buf bytes : List Nat} {a : EncAnalysis F32} {s : EncSt} {t : Nat} (h : CodedFrame32 checks el f d ch x buf a s t)
    (hf : ∀ v ∈ ch.freq, |v| ≤ 2 ^ 15) (hx : ∀ v ∈ x, |v| ≤ 2 ^ 15) (hpl : Plain a)
    (hen : @encodeChannel F32 (scalar el) (Lc3Config.new f d) ch x buf = .ok (ch', bytes)) {dch dch' : DecChannel F32} (hd : ChInv f d dch)
    (hd' : ChInv f d dch') {out o : List Int} {res : DecResult}
    (hde : @decodeChannel F32 (scalar el) checks (Lc3Config.new f d) dch 16 bytes out = .ok (res, dch', o)) {fr : List ℤ} {L eb : List F32} {nn : Bool}
    (hL : @mdctEncRun F32 (scalar el) (Lc3Config.new f d) ch.freq x = .ok (fr, L, eb, nn)) :
    ∃ (tab : List ℕ) (Γ : ℕ → ℝ), bandTable d (Lc3Config.new f d).fsInd = .ok tab ∧
      (∀ b k k', b < (Lc3Config.new f d).nb → InBand tab b k → InBand tab b k' → Γ k = Γ k') ∧
      (∀ k, k < (Lc3Config.new f d).ne → 0 < Γ k ∧ Γ k ≤ 2 ^ 20) ∧
      lineDist (Lc3Config.new f d).nf (dch'.specLines.map val) (L.map val) ≤
        l2 (Lc3Config.new f d).nf (lineOff δ δ' (Lc3Config.new f d).ne Γ (offOf d a buf.length s t) (val a.gg) (L.map val)) := by
  letI := scalar el
  obtain ⟨tab, Γ, h1, h2, h3⟩ := C108 he hl hp hδ hδ1 hδ' hδ1' h hf hx hpl.noTns hpl.range hpl.cut hen hd hde
  refine ⟨tab, Γ, h1, h2, fun k hk => ⟨(h3 k hk).1, (h3 k hk).2.1⟩, ?_⟩
  rw [lineDist_l2]
  refine l2_mono (fun _ _ => abs_nonneg _) fun k _ => ?_
  have hsl : dch'.specLines.length = (Lc3Config.new f d).ne := hd'.spec
  obtain ⟨freq, L', eb', nn', _, _, _, _, _, _, _, _, _, _, _, _, e1, e2, -, -, -, -, -, -, -, -, ha⟩ := encAnalyse_inv h.analysed
  rw [hL] at e1
  simp only [Res.ok.injEq, Prod.mk.injEq] at e1
  obtain ⟨rfl, rfl, rfl, rfl⟩ := e1
  have hmdct : a.mdct = L.take (Lc3Config.new f d).ne := by rw [ha]
  unfold lineOff
  by_cases hk : k < (Lc3Config.new f d).ne
  · obtain ⟨-, -, -, -, h4⟩ := h3 k hk
    rw [if_pos hk]
    have hkL : k < L.length := by omega
    have v1 : (dch'.specLines.map val).getD k 0 = val (dch'.specLines.getD k (fin 0)) := by
      rw [getD_of_lt (by rw [List.length_map]; omega), List.getElem_map, getD_of_lt (by omega)]
    have v2 : (L.map val).getD k 0 = val (a.mdct.getD k (fin 0)) := by
      rw [getD_of_lt (by rw [List.length_map]; omega), List.getElem_map, hmdct, getD_of_lt (by rw [List.length_take]; omega), List.getElem_take]
    rw [v1, v2]
    exact h4
  · rw [if_neg hk, List.getD_eq_default (dch'.specLines.map val) _ (by rw [List.length_map]; omega), zero_sub, abs_neg]

end F32
open F32

/-- **C108** (samples) Binary32, every configuration: two consecutive frames of 16 bit samples up to the amplitude `A`, without temporal noise
shaping and post filter, with all lines in the range of the quantiser and none but small lines cut off, are coded and decoded. There is one
factor per frame and band such that every decoded sample of the second frame is the input sample `nf - 2 z` earlier, up to the rounding to
integers, `A sqrt nf / 8192`, and 1.065 times the norm of `lineOff`: steps of the quantiser times factor, a small part of the line, and the
lines that are not coded at all (of this frame, and of the frame before where they overlap). -/
theorem C108_frames {checks : Bool} {el : Elem} (he : EncFunctions el) (hl : LogFunctions el) {δ δ' : ℝ} (hp : Powers el δ δ') (hδ : 0 ≤ δ)
    (hδ1 : δ ≤ 1 / 2) (hδ' : 0 ≤ δ') (hδ1' : δ' ≤ 1 / 2) {f : SamplingFrequency} {d : FrameDuration} {ch : EncChannel F32} {x0 : List Int}
    {buf0 : List Nat} {a0 : EncAnalysis F32} {s0 : EncSt} {t0 : Nat} (h0 : CodedFrame32 checks el f d ch x0 buf0 a0 s0 t0)
    (off0 : FilterOff a0.p) (pl0 : Plain a0) {dch : DecChannel F32} (hd : ChFin f d dch) (out0 : List Int) :
    ∃ ch' bytes0 dch' o0 L0 eb0 nn0, @encodeChannel F32 (scalar el) (Lc3Config.new f d) ch x0 buf0 = .ok (ch', bytes0) ∧
      @decodeChannel F32 (scalar el) checks (Lc3Config.new f d) dch 16 bytes0 out0 = .ok (.ok, dch', o0) ∧
      @mdctEncRun F32 (scalar el) (Lc3Config.new f d) ch.freq x0 = .ok (ch'.freq, L0, eb0, nn0) ∧
      ∀ (x1 : List Int) (buf1 : List Nat) (a1 : EncAnalysis F32) (s1 : EncSt) (t1 : Nat) (out1 : List Int) (A : ℕ),
        CodedFrame32 checks el f d ch' x1 buf1 a1 s1 t1 → FilterOff a1.p → Plain a1 → out1.length = (Lc3Config.new f d).nf →
        (∀ v ∈ x0 ++ x1, -32768 ≤ v ∧ v ≤ 32767) → 1 ≤ A → A ≤ 2 ^ 15 → (∀ v ∈ ch.freq ++ (x0 ++ x1), |v| ≤ A) →
        ∃ ch'' bytes1 dch'' o1 L1 eb1 nn1, @encodeChannel F32 (scalar el) (Lc3Config.new f d) ch' x1 buf1 = .ok (ch'', bytes1) ∧
          @decodeChannel F32 (scalar el) checks (Lc3Config.new f d) dch' 16 bytes1 out1 = .ok (.ok, dch'', o1) ∧
          @mdctEncRun F32 (scalar el) (Lc3Config.new f d) ch'.freq x1 = .ok (ch''.freq, L1, eb1, nn1) ∧ o1.length = (Lc3Config.new f d).nf ∧
          ∃ (tab : List ℕ) (Γ0 Γ1 : ℕ → ℝ), bandTable d (Lc3Config.new f d).fsInd = .ok tab ∧
            (∀ b k k', b < (Lc3Config.new f d).nb → InBand tab b k → InBand tab b k' → Γ0 k = Γ0 k' ∧ Γ1 k = Γ1 k') ∧
            (∀ k, k < (Lc3Config.new f d).ne → (0 < Γ0 k ∧ Γ0 k ≤ 2 ^ 20) ∧ 0 < Γ1 k ∧ Γ1 k ≤ 2 ^ 20) ∧
            ∀ j, j < (Lc3Config.new f d).nf →
              |(o1.getD j 0 : ℝ) - ((x0 ++ x1).getD (j + 2 * (Lc3Config.new f d).z) 0 : ℝ)| ≤ 1 / 2 + 1 / 2 ^ 24
                + A / 8192 * Real.sqrt (Lc3Config.new f d).nf
                + 1065 / 1000 * (l2 (Lc3Config.new f d).nf (lineOff δ δ' (Lc3Config.new f d).ne Γ1 (offOf d a1 buf1.length s1 t1) (val a1.gg) (L1.map val))
                  + if j < (Lc3Config.new f d).nf - (Lc3Config.new f d).z then
                      l2 (Lc3Config.new f d).nf (lineOff δ δ' (Lc3Config.new f d).ne Γ0 (offOf d a0 buf0.length s0 t0) (val a0.gg) (L0.map val)) else 0) := by
  letI := scalar el
  obtain ⟨ch', bytes0, dch', o0, L0, eb0, nn0, e1, e2, e3, e4⟩ := C103_frames he.toTame h0 off0 hd out0
  refine ⟨ch', bytes0, dch', o0, L0, eb0, nn0, e1, e2, e3, ?_⟩
  intro x1 buf1 a1 s1 t1 out1 A h1 off1 pl1 ho hx hA1 hA hb
  obtain ⟨ch'', bytes1, dch'', o1, L1, eb1, nn1, g1, g2, g3, -, -, -, -, g4, g5⟩ := e4 x1 buf1 a1 s1 t1 out1 A h1 off1 ho hx hA1 hA hb
  have hd' := (decodeChannel_inv hd.inv e2).1
  have hd'' := (decodeChannel_inv hd' g2).1
  have hb' : ∀ v ∈ ch.freq ++ (x0 ++ x1), |v| ≤ (2 ^ 15 : ℕ) := fun v hv => (hb v hv).trans (by exact_mod_cast hA)
  have b0 : ∀ v ∈ ch.freq, |v| ≤ (2 ^ 15 : ℕ) := fun v hv => hb' v (by simp [hv])
  have b1 : ∀ v ∈ x0, |v| ≤ (2 ^ 15 : ℕ) := fun v hv => hb' v (by simp [hv])
  have b2 : ∀ v ∈ x1, |v| ≤ (2 ^ 15 : ℕ) := fun v hv => hb' v (by simp [hv])
  have b3 : ∀ v ∈ ch'.freq, |v| ≤ (2 ^ 15 : ℕ) := by
    have e := e3
    unfold mdctEncRun at e
    split at e
    · cases e
    obtain ⟨fr, u, e⟩ := bind_ok_inv e
    obtain ⟨_, -, e⟩ := bind_ok_inv e
    obtain ⟨_, -, e⟩ := bind_ok_inv e
    obtain ⟨_, -, e⟩ := bind_ok_inv e
    obtain ⟨_, -, e⟩ := bind_ok_inv e
    obtain ⟨_, -, e⟩ := bind_ok_inv e
    simp only [Res.ok.injEq, Prod.mk.injEq] at e
    rw [← e.1]
    exact mdctUpdate_bound u b0 b1
  norm_num at b0 b1 b2 b3
  obtain ⟨tab, Γ0, k1, k2, k3, k4⟩ := plain_dist he hl hp hδ hδ1 hδ' hδ1' h0 (by norm_num; exact b0) (by norm_num; exact b1) pl0 e1 hd.inv hd' e2 e3
  obtain ⟨tab', Γ1, m1, m2, m3, m4⟩ := plain_dist he hl hp hδ hδ1 hδ' hδ1' h1 (by norm_num; exact b3) (by norm_num; exact b2) pl1 g1 hd' hd'' g2 g3
  rw [k1] at m1
  obtain rfl := Res.ok.inj m1
  refine ⟨ch'', bytes1, dch'', o1, L1, eb1, nn1, g1, g2, g3, g4, tab, Γ0, Γ1, k1, fun b k k' hb p1 p2 => ⟨k2 b k k' hb p1 p2, m2 b k k' hb p1 p2⟩,
    fun k hk => ⟨k3 k hk, m3 k hk⟩, fun j hj => (g5 j hj).trans ?_⟩
  split <;> linarith

/-- C108 applies to two frames of silence in 120 bytes at 48 kHz and to a new decoder, with powers of two of relative error 1/1000. -/
example (checks : Bool) : ∃ (el : Elem) (ch : EncChannel F32) (a0 : EncAnalysis F32) (s0 : EncSt) (t0 : Nat) (dch : DecChannel F32),
    EncFunctions el ∧ LogFunctions el ∧ Powers el (1 / 1000) (1 / 1000) ∧ ChFin .hz48000 .tenMs dch ∧
    CodedFrame32 checks el .hz48000 .tenMs ch (List.replicate 480 0) (List.replicate 120 0) a0 s0 t0 ∧ FilterOff a0.p ∧ Plain a0 ∧
    (∀ v ∈ ch.freq, |v| ≤ 1) ∧
    ∃ ch' bytes a1 s1 t1,
      @encodeChannel F32 (scalar el) (Lc3Config.new .hz48000 .tenMs) ch (List.replicate 480 0) (List.replicate 120 0) = .ok (ch', bytes) ∧
      CodedFrame32 checks el .hz48000 .tenMs ch' (List.replicate 480 0) (List.replicate 120 0) a1 s1 t1 ∧ FilterOff a1.p ∧ Plain a1 := by
  obtain ⟨el, he, hlg, hpw⟩ := exists_powers (δ := 1 / 1000) (δ' := 1 / 1000) (by norm_num) (by norm_num) (by norm_num) (by norm_num)
  letI := scalar el
  have hplain : ∀ {ch : EncChannel F32} {a : EncAnalysis F32} {s : EncSt} {t : ℕ},
      CodedFrame32 checks el .hz48000 .tenMs ch (List.replicate 480 0) (List.replicate 120 0) a s t → AllZ a.lines →
      SilentParams (Lc3Config.new .hz48000 .tenMs) a.p → Plain a := by
    intro ch a s t h hz hs
    obtain ⟨q, -, -, hg⟩ := C96_params el h.inv h.len h.analysed h.gain h.inside
    obtain ⟨g, e1, e2, -⟩ := gain_f32 he.gain (nbits := 8 * (List.replicate 120 0).length) (fsInd := (Lc3Config.new .hz48000 .tenMs).fsInd)
      (gg := a.p.ggInd) (by simp) (by decide) h.gain
    have hpos : 0 < val a.gg := by
      rw [hg, e1]
      show (0 : ℝ) < ((g : ℚ) : ℝ)
      exact_mod_cast e2
    have h0 : val (fin 0) = 0 := by show ((0 : ℚ) : ℝ) = 0; norm_num
    refine ⟨?_, ?_, ?_⟩
    · rw [hs.orders]; simp
    · intro y hy
      rw [hz y hy, h0, abs_zero]
      exact ⟨⟨0, rfl⟩, by positivity⟩
    · intro k _
      have : a.lines.getD k (fin 0) = fin 0 := by
        rw [List.getD_eq_getElem?_getD]
        cases e : a.lines[k]? with
        | none => rfl
        | some v => exact hz v (List.mem_of_getElem? e)
      rw [this, h0, abs_zero]
      positivity
  obtain ⟨ch, hi, h0⟩ := newChannel32_48 el .tenMs
  obtain ⟨a0, s0, t0, h, hz0, hzl, -, hs0⟩ := silence_coded32 he hlg checks hi h0 (x := List.replicate 480 0) List.length_replicate (AllZero.replicate _)
    (buf := List.replicate 120 0) (by simp) (by simp)
  have hr : 560 + (Lc3Config.new .hz48000 .tenMs).fsInd * 80
      ≤ ltpfTNbits (Lc3Config.new .hz48000 .tenMs).nMs ((List.replicate 120 0).length * 8) := by
    rw [List.length_replicate]; decide
  obtain ⟨q, ch', bytes, bits, e1, e2, -⟩ := C96 h
  have hz : AllZero ch'.freq := by
    have e := e1
    unfold encodeChannel at e
    rw [h.analysed, Res.bind_ok] at e
    obtain ⟨_, -, e⟩ := bind_ok_inv e
    simp only [Res.ok.injEq, Prod.mk.injEq] at e
    obtain ⟨rfl, -⟩ := e
    exact hz0
  obtain ⟨a1, s1, t1, h', -, hzl', -, hs1⟩ := silence_coded32 he hlg checks e2 hz (x := List.replicate 480 0) List.length_replicate (AllZero.replicate _)
    (buf := List.replicate 120 0) (by simp) (by simp)
  obtain ⟨dch, e', -⟩ := decChannelNew_ok (α := F32) (f := .hz48000) (d := .tenMs)
    (sb := List.replicate (chanScalars (Lc3Config.new .hz48000 .tenMs)) (fin 0))
    (cb := List.replicate (chanComplex (Lc3Config.new .hz48000 .tenMs)) ⟨fin 0, fin 0⟩)
    (by rw [List.length_replicate]) (by rw [List.length_replicate])
  refine ⟨el, ch, a0, s0, t0, dch, he, hlg, hpw, ?_, h, filterOff_of_rate h.analysed hr, hplain h hzl hs0, ?_, ch', bytes, a1, s1, t1, e1, h',
    filterOff_of_rate h'.analysed hr, hplain h' hzl' hs1⟩
  · refine (bd_decChannelNew (fun v hv => ?_) e').1
    rw [List.eq_of_mem_replicate hv]
    exact ⟨⟨0, rfl⟩, by show |((0 : ℚ) : ℝ)| ≤ _; simp⟩
  · intro v hv
    rw [h0 v hv]
    norm_num

end Lc3
