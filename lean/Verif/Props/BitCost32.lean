import Verif.Lemmas.BitCost32
import Verif.Props.Silence32
/-!
# C101: the encoder's bit budget in binary32

`C52` and `C53` for the arithmetic the code uses. The estimate converts a number of 1/2048 bits to binary32; this is exact below
8192 bits.
-/

namespace Lc3
open Scalar Tables Spec
namespace F32

/-- **C101** (quantiser) In binary32 and for all elementary functions: what the quantiser hands to the bit stream writer costs no more
than its budget: the information of the symbols plus the bits written without entropy coding, in the mode the writer uses. The budget has
to be below 8192 bits, and no line may be quantised to `-32768`. The only exception is a spectrum of one pair of lines, which is always
written. -/
theorem C101_quantiser (el : Elem) (f : SamplingFrequency) (d : FrameDuration) {fsInd nbits nbw ntns nltpf : Nat} {s s' : QuantSt F32}
    {xf : List F32} {o : QuantOut F32}
    (h : @quantRun F32 (scalar el) (Lc3Config.new f d).ne fsInd s xf nbits nbw ntns nltpf = .ok (s', o)) (hspec : o.nbitsSpec < 8192)
    (hne : ∀ y ∈ xf, @quantLine F32 (scalar el) o.gg y ≠ -32768) :
    o.lastnzTrunc = 2 ∨ symbolInfo o.rateFlag (Lc3Config.new f d).ne (o.xq.take o.lastnzTrunc) +
      plainBits o.lsbMode (o.xq.take o.lastnzTrunc) ≤ o.nbitsSpec := by
  letI := scalar el
  have hcfg : 2 ≤ (Lc3Config.new f d).ne ∧ (Lc3Config.new f d).ne % 2 = 0 := by cases f <;> cases d <;> decide
  generalize (Lc3Config.new f d).ne = ne at *
  obtain ⟨hl, hb, _, _, _, _, _, q, -, -, -, -, hq, ho⟩ := quantRun_inv h
  have hgg : q.gg = ggValue o.ggInd (ggOffEnc nbits fsInd) := by
    unfold quantSpectrum at hq
    obtain ⟨bc, -, hq⟩ := Res.bind_eq_ok.1 hq
    split at hq
    · simp only [Res.ok.injEq] at hq
      rw [← hq]
    · cases hq
  have hog : o.gg = q.gg := by rw [ho]
  rw [hog, hgg] at hne
  have e1 : o.xq = q.xq := by rw [ho]
  have e2 : o.lastnzTrunc = q.bc.lastnzTrunc := by rw [ho]
  have e3 : o.lsbMode = q.lsbMode := by rw [ho]
  have e4 : o.rateFlag = q.bc.rateFlag := by rw [ho]
  rw [e1, e2, e3, e4]
  exact quantSpectrum_cost32 (el := el) hcfg.1 hcfg.2 hl hspec hne hq

/-- **C101** (budget) In binary32 and for all elementary functions: the encoder's analysis leaves two (up to 160 bytes), three (up to 320
bytes) or four bits of a frame of up to 1023 bytes for the range coder, if no line is quantised to `-32768`. A spectrum of one pair
of lines needs a frame of at least 53 bytes. -/
theorem C101_budget (el : Elem) {f : SamplingFrequency} {d : FrameDuration} {ch : EncChannel F32} (hi : ch.Inv (Lc3Config.new f d))
    {x : List Int} {nbytes : Nat} (hN : nbytes < 1024) {a : EncAnalysis F32}
    (h : @encAnalyse F32 (scalar el) (Lc3Config.new f d) ch x nbytes = .ok a)
    (hne : ∀ y ∈ a.lines, @quantLine F32 (scalar el) a.gg y ≠ -32768) (hlast : a.p.lastnz ≠ 2 ∨ 53 ≤ nbytes) :
    NeedsAtMost (Lc3Config.new f d).ne a.p (8 * nbytes - if nbytes ≤ 160 then 2 else if nbytes ≤ 320 then 3 else 4) := by
  letI := scalar el
  obtain ⟨freq, out, eb, nn, bwInd, nbitsBw, attack, det, sns, tns, ltpf, pf, quant, spec, res, nf, e1, e2, e3, e4, e5, e6, e7,
    e8, e9, e10, ha⟩ := encAnalyse_inv h
  obtain ⟨hx, hb⟩ := mdctEncRun_eb e1
  obtain ⟨s', r, l1, -, l2⟩ := C41_run f d ch.ltpf hi.ltpf x hx nn (nbytes * 8)
  rw [e7] at l1
  simp only [Res.ok.injEq, Prod.mk.injEq] at l1
  obtain ⟨rfl, rfl⟩ := l1
  have l3 := l2.2.1
  obtain ⟨t1, t2⟩ := tnsEncRun_cost32 (el := el) e6
  obtain ⟨-, hbud, -⟩ := quantRun_inv e8
  subst ha
  simp only at hne hlast ⊢
  have hcl : (Lc3Config.new f d).fsInd ≤ 4 ∧ clog2 ((Lc3Config.new f d).ne / 2) ≤ 8 ∧ 2 ≤ (Lc3Config.new f d).ne := by
    cases f <;> cases d <;> decide
  have hcost : symbolInfo spec.rateFlag (Lc3Config.new f d).ne (spec.xq.take spec.lastnzTrunc) +
      plainBits spec.lsbMode (spec.xq.take spec.lastnzTrunc) ≤ spec.nbitsSpec := by
    rcases C101_quantiser el f d e8 (by omega) hne with h2 | h2
    · have hN53 := hlast.resolve_left (fun hc => hc h2)
      -- one pair of lines
      have hebl : eb.length = 64 := by rw [hb, nb_of_inv hi]
      obtain ⟨bw, nbw, e2', hbw, hnbw, -⟩ := C34 _ hcl.1 hi.bw hebl
      rw [e3] at e2'
      simp only [Res.ok.injEq, Prod.mk.injEq] at e2'
      obtain ⟨rfl, rfl⟩ := e2'
      have hnbw3 : nbitsBw ≤ 3 := by
        have key : ∀ i ≤ 4, ∀ n, NBITS_BW_TABLE[i]? = some n → n ≤ 3 := by
          intro i hi n hn
          have : i = 0 ∨ i = 1 ∨ i = 2 ∨ i = 3 ∨ i = 4 := by omega
          rcases this with rfl | rfl | rfl | rfl | rfl <;> (simp [NBITS_BW_TABLE] at hn; omega)
        exact key _ hcl.1 _ hnbw
      have hsl := (snsEncRun_length e5).2
      obtain ⟨tns', e6', ht, -⟩ := tnsEncRun_returns32 el (nbits := nbytes * 8) (nn := nn) hbw hsl (tnsEncRun_stable32 el e6)
      rw [e6] at e6'
      cases e6'
      have hfx : nbitsFixed (Lc3Config.new f d).ne (nbytes * 8) ≤ 62 := by
        unfold nbitsFixed
        split
        · omega
        · split <;> omega
      have hp11 : pf.nbitsLtpf ≤ 11 := by rw [l3]; split <;> omega
      have h168 : 168 ≤ spec.nbitsSpec := by omega
      obtain ⟨c1, c2, -, c4⟩ := C27 f d e8
      obtain ⟨x0, x1, hxx⟩ : ∃ x0 x1, spec.xq.take 2 = [x0, x1] := by
        have hl : (spec.xq.take 2).length = 2 := by rw [List.length_take]; omega
        match spec.xq.take 2, hl with
        | [a, b], _ => exact ⟨a, b, rfl⟩
      have hl : tns.lines.length = (Lc3Config.new f d).ne := (quantRun_inv e8).1
      have hsm : ∀ x ∈ spec.xq.take 2, x.natAbs < 32768 := by
        intro x hx
        obtain ⟨k, hk, rfl⟩ := List.getElem_of_mem hx
        rw [List.length_take] at hk
        have := c4 k (by omega)
        rw [List.getD_eq_getElem _ _ (by omega), List.getD_eq_getElem _ _ (by simp; omega), List.getElem_map] at this
        rw [List.getElem_take, this]
        exact lt_of_natAbs_le (quantLine_bounds _ _) (hne _ (List.getElem_mem _)) (quantLine_hi _ _)
      rw [h2, hxx]
      rw [hxx] at hsm
      have := pair_bits spec.lsbMode spec.rateFlag (Lc3Config.new f d).ne x0 x1 (hsm _ (by simp)) (hsm _ (by simp))
      have h168' : (168 : ℝ) ≤ spec.nbitsSpec := by exact_mod_cast h168
      linarith
    · exact h2
  unfold NeedsAtMost sideLength
  simp only
  rw [frameInfo_eq]
  unfold nbitsFixed at hbud
  have hk : (8 * nbytes - if nbytes ≤ 160 then 2 else if nbytes ≤ 320 then 3 else 4) =
      (nbitsBw + clog2 ((Lc3Config.new f d).ne / 2) + 1 + 8 + (if pf.pitchPresent then 11 else 1) + 38 + 3) + tns.nbitsTns + spec.nbitsSpec := by
    have e1 : (nbytes * 8 ≤ 1280) ↔ nbytes ≤ 160 := by omega
    have e2 : (nbytes * 8 ≤ 2560) ↔ nbytes ≤ 320 := by omega
    simp only [e1, e2] at hbud
    rw [l3] at hbud
    split_ifs at hbud ⊢ <;> omega
  rw [hk]
  push_cast
  linarith

/-- **C101** In binary32: the budget of the encoder is large enough. For elementary functions of the accuracy `GainFunctions`, a frame of
up to 1023 bytes, finite lines in the range of the largest gain and of at most 32767.5 steps of the gain used, no more than 44 (up to
160 bytes), 88 (up to 320 bytes) or 132 range coded symbols, and more than one pair of lines or at least 53 bytes: the body of the frame
is written without an error, and by the encoder's own count it fits (up to the eight bits of a first byte that is held back). -/
theorem C101 {el : Elem} (hel : GainFunctions el) {f : SamplingFrequency} {d : FrameDuration} {ch : EncChannel F32}
    (hi : ch.Inv (Lc3Config.new f d)) {x : List Int} {buf : List Nat} (hN : buf.length < 1024) {a : EncAnalysis F32}
    (h : @encAnalyse F32 (scalar el) (Lc3Config.new f d) ch x buf.length = .ok a)
    (hr : ∀ y ∈ a.lines, IsFin y ∧ |val y| ≤ 32767 * stepOf (8 * buf.length) (Lc3Config.new f d).fsInd 255)
    (hg : ∀ y ∈ a.lines, |val y| ≤ (32767 + 1 / 2) * val a.gg)
    (hsym : symbolsOf (Lc3Config.new f d).ne a.p ≤ if buf.length ≤ 160 then 44 else if buf.length ≤ 320 then 88 else 132)
    (hlast : a.p.lastnz ≠ 2 ∨ 53 ≤ buf.length) :
    ∃ lsbs s t, encodeBody (Lc3Config.new f d).ne a.p ch.bits buf = .ok (lsbs, s) ∧ s.w.nbitsSideWritten (8 * buf.length) = .ok t ∧
      t + nbitsAriForecast s ≤ 8 * buf.length + (if s.ac.cache < 0 then 8 else 0) := by
  letI := scalar el
  obtain ⟨r1, r2⟩ := C96_range hel (by omega) h hr hg
  obtain ⟨q, hs, hd, hgg⟩ := C96_params el hi (by omega) h r1 r2
  have hne : ∀ y ∈ a.lines, quantLine a.gg y ≠ -32768 := by
    intro y hy hc
    have hfs : (Lc3Config.new f d).fsInd ≤ 4 := by cases f <;> cases d <;> decide
    obtain ⟨g, e1, e2, -⟩ := gain_f32 hel (nbits := 8 * buf.length) (fsInd := (Lc3Config.new f d).fsInd) (gg := a.p.ggInd) (by omega) hfs r1
    rw [e1] at hgg
    obtain ⟨x, hx⟩ := (hr y hy).1
    have hgy := hg y hy
    rw [hgg, hx] at hc hgy
    have hx' : |x| ≤ (32767 + 1 / 2) * g := by
      have : |(x : ℝ)| ≤ (32767 + 1 / 2) * g := hgy
      have h2 : ((|x| : ℚ) : ℝ) ≤ (((32767 + 1 / 2) * g : ℚ) : ℝ) := by push_cast; exact this
      exact_mod_cast h2
    have := (quantLine_f32 el e2 hx').1
    rw [hc] at this
    norm_num at this
  have hbud := C101_budget el hi hN h hne hlast
  have hl : a.p.nbitsLsb ≤ 3840 ∧ (a.p.lsbMode = true → postponed (a.p.xq.take a.p.lastnz) ≤ a.p.nbitsLsb) ∧ 6 ≤ 8 * buf.length := by
    obtain ⟨freq, out, eb, nn, bwInd, nbitsBw, attack, det, sns, tns, ltpf, pf, quant, spec, res, nf, e1, e2, e3, e4, e5, e6, e7,
      e8, e9, e10, ha⟩ := encAnalyse_inv h
    obtain ⟨g1, g2⟩ := C33 f d e8
    obtain ⟨-, hb, -⟩ := quantRun_inv e8
    unfold nbitsFixed at hb
    subst ha
    exact ⟨g1, fun hm => (g2 hm).1, by omega⟩
  obtain ⟨l1, l2, l3⟩ := hl
  refine C53_writer (m := if buf.length ≤ 160 then 1 else if buf.length ≤ 320 then 2 else 3) ch.bits hs hd (by omega) l1 l2
    (by split_ifs <;> omega) (by split_ifs at hsym ⊢ <;> omega) (by split_ifs <;> omega) ?_
  convert hbud using 2
  split_ifs <;> rfl

/-- **C101** (frame) Such a frame in normal mode, whose range coder has emitted a byte (`0 ≤ cache`) and whose final value does not
wrap, is a coded frame: `C96` says that the parser returns what was analysed, `C99` bounds the error of its lines. -/
theorem C101_frame {checks : Bool} {el : Elem} (hel : GainFunctions el) {f : SamplingFrequency} {d : FrameDuration} {ch : EncChannel F32}
    (hi : ch.Inv (Lc3Config.new f d)) {x : List Int} {buf : List Nat} (hN : buf.length < 1024) {a : EncAnalysis F32}
    (h : @encAnalyse F32 (scalar el) (Lc3Config.new f d) ch x buf.length = .ok a)
    (hr : ∀ y ∈ a.lines, IsFin y ∧ |val y| ≤ 32767 * stepOf (8 * buf.length) (Lc3Config.new f d).fsInd 255)
    (hg : ∀ y ∈ a.lines, |val y| ≤ (32767 + 1 / 2) * val a.gg)
    (hsym : symbolsOf (Lc3Config.new f d).ne a.p ≤ if buf.length ≤ 160 then 44 else if buf.length ≤ 320 then 88 else 132)
    (hlast : a.p.lastnz ≠ 2 ∨ 53 ≤ buf.length) (hmode : a.p.lsbMode = false)
    (hseed : checks = false ∨ weightedSum (a.p.xq.take a.p.lastnz) < 2 ^ 31)
    (hw : ∀ lsbs s, encodeBody (Lc3Config.new f d).ne a.p ch.bits buf = .ok (lsbs, s) → 0 ≤ s.ac.cache ∧ ¬ finalValueWraps s.ac) :
    ∃ s t, CodedFrame32 checks el f d ch x buf a s t := by
  obtain ⟨lsbs, s, t, e1, e2, e3⟩ := C101 hel hi hN h hr hg hsym hlast
  obtain ⟨r1, r2⟩ := C96_range hel (by omega) h hr hg
  obtain ⟨w1, w2⟩ := hw lsbs s e1
  rw [if_neg (by omega)] at e3
  exact ⟨s, t, hi, by omega, h, r1, r2, hmode, ⟨lsbs, e1⟩, ⟨e2, by omega⟩, .inl w2, hseed⟩

/-- C101 and C101_frame apply to a frame of 480 zeros at 48 kHz and 100 bytes, with elementary functions of the assumed accuracy. -/
example : ∃ (el : Elem) (ch : EncChannel F32) (a : EncAnalysis F32), GainFunctions el ∧ ch.Inv (Lc3Config.new .hz48000 .tenMs) ∧
    @encAnalyse F32 (scalar el) (Lc3Config.new .hz48000 .tenMs) ch (List.replicate 480 0) 100 = .ok a ∧
    (∀ y ∈ a.lines, IsFin y ∧ |val y| ≤ 32767 * stepOf (8 * 100) (Lc3Config.new .hz48000 .tenMs).fsInd 255) ∧
    (∀ y ∈ a.lines, |val y| ≤ (32767 + 1 / 2) * val a.gg) ∧ symbolsOf (Lc3Config.new .hz48000 .tenMs).ne a.p ≤ 44 ∧
    a.p.lsbMode = false ∧ weightedSum (a.p.xq.take a.p.lastnz) < 2 ^ 31 := by
  obtain ⟨el, he, hlg⟩ := exists_logFunctions
  obtain ⟨ch, hi, h0⟩ := newChannel32_48 el .tenMs
  obtain ⟨a, s, t, h, -, hz, -, hp⟩ := silence_coded32 he hlg true hi h0 (x := List.replicate 480 0) List.length_replicate (AllZero.replicate _)
    (buf := List.replicate 100 0) (by simp) (by simp)
  obtain ⟨q, -, hd, h3⟩ := C96_params el h.inv h.len h.analysed h.gain h.inside
  obtain ⟨g, e1, e2, -⟩ := gain_f32 he.gain (nbits := 8 * (List.replicate 100 0).length) (fsInd := (Lc3Config.new .hz48000 .tenMs).fsInd) (gg := a.p.ggInd)
    (by simp) (by decide) h.gain
  rw [e1] at h3
  have han := h.analysed
  rw [List.length_replicate] at han
  have hx2 : a.p.xq.take a.p.lastnz = [0, 0] := by rw [hp.xq, hp.last]; rfl
  refine ⟨el, ch, a, he.gain, hi, han, fun y hy => ?_, fun y hy => ?_, ?_, h.mode, ?_⟩
  · rw [hz y hy]
    refine ⟨⟨0, rfl⟩, ?_⟩
    show |((0 : ℚ) : ℝ)| ≤ _
    rw [Rat.cast_zero, abs_zero]
    unfold stepOf
    positivity
  · rw [hz y hy, h3]
    show |((0 : ℚ) : ℝ)| ≤ (32767 + 1 / 2) * (g : ℝ)
    have : (0 : ℝ) < g := by exact_mod_cast e2
    simp only [Rat.cast_zero, abs_zero]
    positivity
  · unfold symbolsOf frameSymbols
    have hrf : a.p.rateFlag = 0 ∨ a.p.rateFlag = 512 := by rw [hd.rate]; split <;> simp
    obtain ⟨-, s2⟩ := zero_pair_symbols .hz48000 .tenMs _ hrf
    rw [hx2, s2]
    have : ∀ n, ((List.range n).map fun f => filterCount ((a.p.rcI.drop (8 * f)).take (a.p.rcOrder.getD f 0))).sum = 0 := by
      intro n
      refine List.sum_eq_zero ?_
      intro v hv
      obtain ⟨k, -, rfl⟩ := List.mem_map.1 hv
      have : a.p.rcOrder.getD k 0 = 0 := by rw [hp.orders]; rcases k with - | - | k <;> rfl
      rw [this]
      simp [filterCount]
    rw [this]
    omega
  · rw [hx2]; decide

end F32
end Lc3
