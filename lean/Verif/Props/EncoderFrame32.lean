import Verif.Lemmas.EncF32
import Verif.Props.Gain32
/-!
# C96: from the signal to the parsed frame in binary32

`C46` and `C47` for the arithmetic the code uses. Nothing is assumed about the elementary functions.
-/

namespace Lc3
open Spec Tables Scalar
namespace F32

/-- A frame coded by the encoder in binary32: the analysis returned, the gain index has 8 bits and no coded line is `-32768`, the frame
is in normal mode, and (conditions of `C04`) the body fits by the encoder's own count, the final value of the range coder does not wrap
or 22 bits stay unused, and the seed computation of the decoder does not overflow. -/
structure CodedFrame32 (checks : Bool) (el : Elem) (f : SamplingFrequency) (d : FrameDuration) (ch : EncChannel F32) (x : List Int)
    (buf : List Nat) (a : EncAnalysis F32) (s : EncSt) (t : Nat) : Prop where
  inv : ch.Inv (Lc3Config.new f d)
  len : buf.length < 4096
  analysed : @encAnalyse F32 (scalar el) (Lc3Config.new f d) ch x buf.length = .ok a
  gain : a.p.ggInd < 256
  inside : ∀ v ∈ a.p.xq.take a.p.lastnz, v ≠ -32768
  mode : a.p.lsbMode = false
  body : ∃ lsbs, encodeBody (Lc3Config.new f d).ne a.p ch.bits buf = .ok (lsbs, s)
  fits : Fits buf.length s t
  wrap : ¬ finalValueWraps s.ac ∨ t + nbitsAriForecast s + a.p.residual.length + 22 ≤ 8 * buf.length
  seed : checks = false ∨ weightedSum (a.p.xq.take a.p.lastnz) < 2 ^ 31

/-- **C96** (parameters) In binary32, for all elementary functions, all signals and all states of a channel: if the gain index has 8
bits and no coded line is `-32768`, all parameters of the frame are in the ranges of the format, the lines are codable, and the gain of
the quantiser is, bit for bit, the gain the decoder computes from the transmitted index. -/
theorem C96_params (el : Elem) {f : SamplingFrequency} {d : FrameDuration} {ch : EncChannel F32} (hi : ch.Inv (Lc3Config.new f d))
    {x : List Int} {nbytes : Nat} (hN : nbytes < 4096) {a : EncAnalysis F32}
    (h : @encAnalyse F32 (scalar el) (Lc3Config.new f d) ch x nbytes = .ok a) (hg : a.p.ggInd < 256)
    (hne : ∀ v ∈ a.p.xq.take a.p.lastnz, v ≠ -32768) :
    ∃ q : PulseIdx, SideOk (Lc3Config.new f d) a.p q ∧ DataOk (Lc3Config.new f d) nbytes a.p ∧
      a.gg = @globalGainFactor F32 (scalar el) (8 * nbytes) (Lc3Config.new f d).fsInd a.p.ggInd :=
  encAnalyse_f32 el hi hN h hg hne

/-- **C96** (gain and lines) For elementary functions of the accuracy `GainFunctions`: the two conditions hold for every frame whose
lines are finite, within the range of the largest gain, and at most 32767.5 steps of the gain used. -/
theorem C96_range {el : Elem} (hel : GainFunctions el) {f : SamplingFrequency} {d : FrameDuration} {ch : EncChannel F32}
    {x : List Int} {nbytes : Nat} (hN : nbytes < 4096) {a : EncAnalysis F32}
    (h : @encAnalyse F32 (scalar el) (Lc3Config.new f d) ch x nbytes = .ok a)
    (hr : ∀ y ∈ a.lines, IsFin y ∧ |val y| ≤ 32767 * stepOf (8 * nbytes) (Lc3Config.new f d).fsInd 255)
    (hg : ∀ y ∈ a.lines, |val y| ≤ (32767 + 1 / 2) * val a.gg) :
    a.p.ggInd < 256 ∧ ∀ v ∈ a.p.xq.take a.p.lastnz, v ≠ -32768 := by
  letI := scalar el
  obtain ⟨freq, out, eb, nn, bwInd, nbitsBw, attack, det, sns, tns, ltpf, pf, quant, spec, res, nf, e1, e2, e3, e4, e5, e6, e7,
    e8, e9, e10, ha⟩ := encAnalyse_inv h
  have hfs : (Lc3Config.new f d).fsInd ≤ 4 := by cases f <;> cases d <;> decide
  have hlines : a.lines = tns.lines := by rw [ha]
  have hgg : a.gg = spec.gg := by rw [ha]
  rw [hlines, Nat.mul_comm] at hr
  rw [hlines, hgg] at hg
  obtain ⟨c1, c2, c3, c4, c5, c6, c7⟩ := C97 hel f d (by omega) hfs e8 hr
  refine ⟨?_, ?_⟩
  · rw [ha]
    simp only
    rw [i32AsUsize_of_nonneg c1 (by omega)]
    omega
  · intro v hv
    have hv' : v ∈ spec.xq.take spec.lastnzTrunc := by rw [ha] at hv; exact hv
    obtain ⟨k, hk, rfl⟩ := List.getElem_of_mem hv'
    rw [List.length_take] at hk
    have hlen : tns.lines.length = (Lc3Config.new f d).ne := (quantRun_inv e8).1
    have := (c7 k (by omega) ?_).1
    · rw [List.getElem_take]
      rw [List.getD_eq_getElem _ _ (by omega)] at this
      intro hh
      rw [hh] at this
      norm_num at this
    · by_cases hkl : k < tns.lines.length
      · rw [List.getD_eq_getElem _ _ hkl]
        exact hg _ (List.getElem_mem hkl)
      · rw [List.getD_eq_default _ _ (by omega)]
        show |((0 : ℚ) : ℝ)| ≤ _
        rw [Rat.cast_zero, abs_zero]
        positivity

/-- **C96** From the signal to the parsed frame, in binary32 and for all elementary functions: the encoder writes a frame of the length
of the buffer, its channel stays usable, and the decoder's parser returns exactly the parameters, the quantised lines and the
refinement bits the analysis computed. -/
theorem C96 {checks : Bool} {el : Elem} {f : SamplingFrequency} {d : FrameDuration} {ch : EncChannel F32} {x : List Int} {buf : List Nat}
    {a : EncAnalysis F32} {s : EncSt} {t : Nat} (h : CodedFrame32 checks el f d ch x buf a s t) :
    ∃ q ch' bytes bits, @encodeChannel F32 (scalar el) (Lc3Config.new f d) ch x buf = .ok (ch', bytes) ∧ ch'.Inv (Lc3Config.new f d) ∧
      bytes.length = buf.length ∧
      readFrame checks (Lc3Config.new f d) bytes = .ok (expectedSide a.p q,
        ⟨expectedOrders a.p, expectedTnsIdx a.p, bits, expectedSeed a.p, expectedZero a.p, 8 * buf.length⟩, expectedX a.p) ∧
      bits.length = min (encoderRoom buf.length s t + if s.ac.cache < 0 then 8 else 0) (nonZeroLines a.p) ∧
      (∀ i, i < encoderRoom buf.length s t → i < a.p.residual.length → i < nonZeroLines a.p → bits[i]? = a.p.residual[i]?) := by
  letI := scalar el
  obtain ⟨q, h1, h2, -⟩ := C96_params el h.inv h.len h.analysed h.gain h.inside
  obtain ⟨lsbs, hb⟩ := h.body
  obtain ⟨s', bits, e1, e2, e3, e4, e5⟩ := C04_partial checks h1 h2 (by have := h.len; omega) h.mode hb h.fits h.wrap h.seed
  have he : ∃ ch', encodeChannel (Lc3Config.new f d) ch x buf = .ok (ch', s'.buf) := by
    unfold encodeChannel
    rw [h.analysed, Res.bind_ok, e1]
    exact ⟨_, rfl⟩
  obtain ⟨ch', he⟩ := he
  exact ⟨q, ch', s'.buf, bits, he, encodeChannel_keeps h.inv he, e2, e3, e4, e5⟩

end F32
end Lc3
