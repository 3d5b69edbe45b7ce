import Verif.Props.CodecError
/-!
# C80: frames in LSB mode

`C05_fails` shows that frames in LSB mode are not decoded exactly; `C05_error` bounds the error of the quantised lines. Here that
bound is carried through the rest of both codecs (exact arithmetic): what `C48` and `C49` say about normal frames holds for all frames
in LSB mode with a larger constant.
-/

namespace Lc3
open Scalar Spec

/-- The hypotheses of `CodedFrame` for a frame in LSB mode. -/
structure CodedLsbFrame (checks : Bool) (f : SamplingFrequency) (d : FrameDuration) (ch : EncChannel ℝ) (x : List Int) (buf : List Nat)
    (a : EncAnalysis ℝ) (s : EncSt) (t : Nat) : Prop where
  inv : ch.Inv (Lc3Config.new f d)
  len : buf.length < 4096
  analysed : encAnalyse (Lc3Config.new f d) ch x buf.length = .ok a
  range : ∀ y ∈ a.lines, |y| ≤ Spec.maxLine (8 * buf.length) (Lc3Config.new f d).fsInd
  inside : ∀ y ∈ a.lines, y ≠ -(32768 - 3 / 8) * a.gg
  mode : a.p.lsbMode = true
  body : ∃ lsbs, encodeBody (Lc3Config.new f d).ne a.p ch.bits buf = .ok (lsbs, s) ∧
    (¬ finalValueWraps s.ac ∨
      t + nbitsAriForecast s + min lsbs.length (encoderRoom buf.length s t) + 22 ≤ 8 * buf.length)
  fits : Fits buf.length s t
  seed : checks = false ∨ weightedSum (a.p.xq.take a.p.lastnz) + 400000 < 2 ^ 31

/-- What the decoder reads from the frame. -/
theorem CodedLsbFrame.read {checks : Bool} {f : SamplingFrequency} {d : FrameDuration} {ch : EncChannel ℝ} {x : List Int} {buf : List Nat}
    {a : EncAnalysis ℝ} {s : EncSt} {t : Nat} (h : CodedLsbFrame checks f d ch x buf a s t) {q : PulseIdx}
    (h1 : SideOk (Lc3Config.new f d) a.p q) (h2 : DataOk (Lc3Config.new f d) buf.length a.p) :
    ∃ ch' bytes ys, encodeChannel (Lc3Config.new f d) ch x buf = .ok (ch', bytes) ∧ ch'.Inv (Lc3Config.new f d) ∧
      bytes.length = buf.length ∧ ys.length = a.p.lastnz ∧
      readFrame checks (Lc3Config.new f d) bytes = .ok (expectedSide a.p q,
        ⟨expectedOrders a.p, expectedTnsIdx a.p, [], weightedSum ys % 65536,
          decide (a.p.lastnz = 2 ∧ a.p.ggInd = 0 ∧ ∀ y ∈ ys, y = 0), 8 * buf.length⟩,
        ys ++ List.replicate (400 - a.p.lastnz) 0) ∧
      ∀ i < a.p.lastnz,
        ((ys.getD i 0 - a.p.xq.getD i 0).natAbs ≤ 1 ∨ ((a.p.xq.getD i 0).natAbs = 1 ∧ ys.getD i 0 = -a.p.xq.getD i 0)) ∧
        (¬ Escaped a.p (i / 2) → ¬ Escaped a.p (2 * (i / 2)) → ys.getD i 0 = a.p.xq.getD i 0) := by
  obtain ⟨lsbs, hb, hw⟩ := h.body
  obtain ⟨s', ys, e1, e2, e3, e4, e5⟩ := C05_error checks h1 h2 (by have := h.len; omega) h.mode hb h.fits hw h.seed
  have he : ∃ ch', encodeChannel (Lc3Config.new f d) ch x buf = .ok (ch', s'.buf) := by
    unfold encodeChannel
    rw [h.analysed, Res.bind_ok, e1]
    exact ⟨_, rfl⟩
  obtain ⟨ch', he⟩ := he
  exact ⟨ch', s'.buf, ys, he, encodeChannel_keeps h.inv he, e2, e3, e4, e5⟩

/-- the parameters of a normal frame with the lines `ys` -/
def linesOf (p : FrameParams) (ne : Nat) (ys : List Int) : FrameParams :=
  { p with xq := ys ++ List.replicate (ne - ys.length) 0, lsbMode := false }

theorem dequantise_lsb {f : SamplingFrequency} {d : FrameDuration} {p : FrameParams} {q : PulseIdx} {spec : List ℝ} {N : Nat}
    {ys : List Int} (hs : SideOk (Lc3Config.new f d) p q) (hm : p.lsbMode = true) (hy : ys.length = p.lastnz)
    (hsp : spec.length = (Lc3Config.new f d).ne) :
    ∃ deq : List ℝ, dequantise (Lc3Config.new f d) spec (expectedSide p q)
        ⟨expectedOrders p, expectedTnsIdx p, [], weightedSum ys % 65536,
          decide (p.lastnz = 2 ∧ p.ggInd = 0 ∧ ∀ y ∈ ys, y = 0), 8 * N⟩
        (ys ++ List.replicate (400 - p.lastnz) 0) = .ok deq ∧
      deq.length = (Lc3Config.new f d).ne ∧
      ∀ k, k < (Lc3Config.new f d).ne → ∃ v : ℝ, deq.getD k 0 = v * globalGainFactor (8 * N) (Lc3Config.new f d).fsInd p.ggInd ∧
        (ys.getD k 0 ≠ 0 → v = ys.getD k 0) ∧ (ys.getD k 0 = 0 → |v| ≤ 1 / 2) := by
  have hne := hs.lastnzHi
  have htake : (linesOf p (Lc3Config.new f d).ne ys).xq.take (linesOf p (Lc3Config.new f d).ne ys).lastnz = ys := by
    show (ys ++ List.replicate _ 0).take p.lastnz = ys
    rw [← hy, List.take_left]
  have hget : ∀ k, (linesOf p (Lc3Config.new f d).ne ys).xq.getD k 0 = ys.getD k 0 := by
    intro k
    show (ys ++ List.replicate _ 0).getD k 0 = _
    by_cases hk : k < ys.length
    · rw [List.getD_append _ _ _ _ hk]
    · rw [List.getD_append_right _ _ _ _ (by omega), List.getD_eq_default ys _ (by omega), List.getD_eq_getElem?_getD,
        List.getElem?_replicate]
      split <;> rfl
  have hs' : SideOk (Lc3Config.new f d) (linesOf p (Lc3Config.new f d).ne ys) q := by
    obtain ⟨a1, a2, a3, a4, a5, a6, a7, a8, a9, a10, a11, a12, a13, a14, a15, a16, a17, a18⟩ := hs
    exact ⟨a1, a2, a3, a4, a5, a6, a7, a8, a9, a10, a11, a12, a13, a14, a15, a16, a17, a18⟩
  obtain ⟨deq, d1, d2, d3⟩ := dequantise_lines (spec := spec) (N := N) (bits := []) hs'
    (by show p.lastnz ≤ (ys ++ _).length; rw [List.length_append]; omega)
    (by
      intro k hk
      rw [hget]
      exact List.getD_eq_default _ _ (by rw [hy]; exact hk))
    (by show (ys ++ _).length = _; rw [List.length_append, List.length_replicate]; omega) rfl hsp
  refine ⟨deq, ?_, d2, ?_⟩
  · rw [← d1]
    unfold dequantise
    have hX : expectedX (linesOf p (Lc3Config.new f d).ne ys) = ys ++ List.replicate (400 - p.lastnz) 0 := by
      unfold expectedX; rw [htake]; rfl
    have hseed : expectedSeed (linesOf p (Lc3Config.new f d).ne ys) = weightedSum ys % 65536 := by
      unfold expectedSeed; rw [htake]
    have hz : expectedZero (linesOf p (Lc3Config.new f d).ne ys) =
        decide (p.lastnz = 2 ∧ p.ggInd = 0 ∧ ∀ y ∈ ys, y = 0) := by
      unfold expectedZero; simp only [htake]; rfl
    rw [hX, hseed, hz]
    have hl1 : (expectedSide p q).lsbMode = true := hm
    have hl2 : (expectedSide (linesOf p (Lc3Config.new f d).ne ys) q).lsbMode = false := rfl
    have hres : ∀ l : List ℝ, residualDecode true [] l = residualDecode false [] l := by
      intro l
      unfold residualDecode
      simp only [Bool.not_true, Bool.not_false, Bool.false_eq_true, if_false, if_true]
      induction l with
      | nil => rfl
      | cons a l ih =>
        rw [residualLoop]
        split
        · rfl
        · rw [← ih]
    simp only [hl1, hl2, hres]
    rfl
  · intro k hk
    obtain ⟨v, v1, v2, v3⟩ := d3 k hk
    rw [hget] at v2 v3
    exact ⟨v, v1, fun h0 => v2 h0, fun h0 => (v3 h0).1⟩

/-- the quantiser's rounding of one line that is coded or small -/
theorem quant_error {step y : ℝ} {x : Int} (hpos : 0 < step) (hb : |y| / step + 3 / 8 ≤ 32768)
    (hq : x = quantLine step y) : |(x : ℝ) * step - y| ≤ 5 / 8 * step := by
  obtain ⟨r1, r2⟩ := quantLine_real hpos hb
  rw [← hq] at r1 r2
  have key : (x : ℝ) * step - y = (x - y / step) * step := by field_simp
  rw [key, abs_mul, abs_of_pos hpos]
  refine mul_le_mul_of_nonneg_right ?_ hpos.le
  rcases le_or_gt 0 y with hy0 | hy0
  · obtain ⟨-, r4, r5⟩ := r1 hy0
    rw [abs_le]; constructor <;> linarith
  · obtain ⟨-, r4, r5⟩ := r2 hy0
    rw [abs_le]; constructor <;> linarith

/-- the decoder's gain factor is the step of the specification -/
theorem gain_step {N fsInd ggInd : Nat} (hN : N < 4096) :
    (globalGainFactor (8 * N) fsInd ggInd : ℝ) = stepOf (8 * N) fsInd ggInd := by
  rw [← (C25 (by omega)).2, ggOffEnc_spec (by omega)]
  unfold ggValue stepOf
  show (10 : ℝ) ^ ((((((ggInd : ℕ) : ℤ) : ℚ) : ℝ) + (((gainOffset (8 * N) fsInd : ℤ) : ℚ) : ℝ)) / ((28 : ℚ) : ℝ)) = _
  push_cast
  rfl

/-- distance of a reconstructed line `v * step` from a line `y` whose rounded value is `z` and was read as `w` -/
theorem lsb_line_error {step y v : ℝ} {z w : Int} {exact : Prop} (hpos : 0 < step) (hround : |(z : ℝ) * step - y| ≤ 5 / 8 * step)
    (v2 : w ≠ 0 → v = w) (v3 : w = 0 → |v| ≤ 1 / 2) (c6 : (w - z).natAbs ≤ 1 ∨ (z.natAbs = 1 ∧ w = -z))
    (c7 : exact → w = z) :
    |v * step - y| ≤ 21 / 8 * step ∧ (2 ≤ z.natAbs → |v * step - y| ≤ 13 / 8 * step) ∧
      (exact → |v * step - y| ≤ 9 / 8 * step) := by
  have step1 : ∀ e : ℝ, |v - z| ≤ e → |v * step - y| ≤ (e + 5 / 8) * step := by
    intro e he
    have : v * step - y = (v - z) * step + ((z : ℝ) * step - y) := by ring
    rw [this]
    refine (abs_add_le _ _).trans ?_
    rw [abs_mul, abs_of_pos hpos]
    nlinarith [mul_le_mul_of_nonneg_right he hpos.le]
  have cast : ∀ m : Nat, (w - z).natAbs ≤ m → |((w : ℝ) - z)| ≤ m := by
    intro m hm
    have : |w - z| ≤ (m : Int) := by rw [Int.abs_eq_natAbs]; omega
    have h2 : ((|w - z| : ℤ) : ℝ) ≤ ((m : ℤ) : ℝ) := by exact_mod_cast this
    push_cast at h2
    exact h2
  have cast0 : ∀ m : Nat, z.natAbs ≤ m → |(z : ℝ)| ≤ m := by
    intro m hm
    have : |z| ≤ (m : Int) := by rw [Int.abs_eq_natAbs]; omega
    have h2 : ((|z| : ℤ) : ℝ) ≤ ((m : ℤ) : ℝ) := by exact_mod_cast this
    push_cast at h2
    exact h2
  refine ⟨?_, ?_, ?_⟩
  · by_cases hw : w = 0
    · have hz : z.natAbs ≤ 1 := by omega
      have b1 := cast0 1 hz
      have b2 := v3 hw
      have := step1 (3 / 2) (by
        rw [abs_le] at b1 b2 ⊢
        push_cast at b1
        constructor <;> linarith)
      nlinarith
    · have := step1 2 (by rw [v2 hw]; exact_mod_cast cast 2 (by omega))
      nlinarith
  · intro hz
    have hw : w ≠ 0 := by omega
    have := step1 1 (by rw [v2 hw]; exact_mod_cast cast 1 (by omega))
    nlinarith
  · intro e1
    have hwz := c7 e1
    by_cases hw : w = 0
    · have := step1 (1 / 2) (by rw [← hwz, hw]; simpa using v3 hw)
      nlinarith
    · have := step1 0 (by rw [v2 hw, hwz]; simp)
      nlinarith

/-- **C80** In exact arithmetic, for every frame in LSB mode whose quantised values are the lines `lines` rounded (with an error of at
most 5/8 of the quantiser step): the decoder returns, and every line it reconstructs below the coded length differs from the
original line by at most 21/8 of the step; by at most 13/8 if the transmitted magnitude is at least two; and by at most 9/8 if neither
the pair `k` of the line nor the pair `2 k` is escaped. -/
theorem C80 {f : SamplingFrequency} {d : FrameDuration} {p : FrameParams} {q : PulseIdx}
    {buf : List Nat} {stale s : EncSt} {lsbs : List Bool} {t : Nat} (checks : Bool)
    (hs : SideOk (Lc3Config.new f d) p q) (hd : DataOk (Lc3Config.new f d) buf.length p)
    (hN : buf.length < 4096) (hmode : p.lsbMode = true)
    (hb : encodeBody (Lc3Config.new f d).ne p stale buf = .ok (lsbs, s)) (hfit : Fits buf.length s t)
    (hwrap : ¬ finalValueWraps s.ac ∨
      t + nbitsAriForecast s + min lsbs.length (encoderRoom buf.length s t) + 22 ≤ 8 * buf.length)
    (hseed : checks = false ∨ weightedSum (p.xq.take p.lastnz) + 400000 < 2 ^ 31)
    {lines : List ℝ} {step : ℝ} (hstep : step = stepOf (8 * buf.length) (Lc3Config.new f d).fsInd p.ggInd)
    (hlines : ∀ k < p.lastnz, |((p.xq.getD k 0 : Int) : ℝ) * step - lines.getD k 0| ≤ 5 / 8 * step)
    {spec : List ℝ} (hsp : spec.length = (Lc3Config.new f d).ne) :
    ∃ s' si ad X deq, encodeFrame (Lc3Config.new f d).ne p stale buf = .ok s' ∧
      readFrame checks (Lc3Config.new f d) s'.buf = .ok (si, ad, X) ∧ dequantise (Lc3Config.new f d) spec si ad X = .ok deq ∧
      deq.length = (Lc3Config.new f d).ne ∧
      ∀ k, k < p.lastnz → ∀ err : ℝ, err = |deq.getD k 0 - lines.getD k 0| →
        err ≤ 21 / 8 * step ∧ (2 ≤ (p.xq.getD k 0).natAbs → err ≤ 13 / 8 * step) ∧
        (¬ Escaped p (k / 2) ∧ ¬ Escaped p (2 * (k / 2)) → err ≤ 9 / 8 * step) := by
  obtain ⟨s', ys, e1, e2, e3, e4, e5⟩ := C05_error checks hs hd (by omega) hmode hb hfit hwrap hseed
  obtain ⟨deq, d1, d2, d3⟩ := dequantise_lsb (N := buf.length) hs hmode e3 hsp
  refine ⟨s', _, _, _, deq, e1, e4, d1, d2, ?_⟩
  intro k hk err herr
  have hlz := hs.lastnzHi
  obtain ⟨v, v1, v2, v3⟩ := d3 k (by omega)
  rw [gain_step hN, ← hstep] at v1
  obtain ⟨c6, c7⟩ := e5 k hk
  rw [herr, v1]
  have hpos : 0 < step := by rw [hstep]; unfold stepOf; positivity
  exact lsb_line_error hpos (hlines k hk) v2 v3 c6 (fun h => c7 h.1 h.2)

/-- The hypotheses of C80 hold for the frame `lsbParams` of 20 bytes, whose second pair is escaped, and for lines that are multiples
of the step. -/
example : ∃ (s : EncSt) (lsbs : List Bool) (t : Nat) (lines : List ℝ) (step : ℝ),
    SideOk (Lc3Config.new .hz16000 .tenMs) lsbParams ⟨12345, 0, 0⟩ ∧
    DataOk (Lc3Config.new .hz16000 .tenMs) 20 lsbParams ∧ lsbParams.lsbMode = true ∧
    encodeBody (Lc3Config.new .hz16000 .tenMs).ne lsbParams staleSt (List.replicate 20 0) = .ok (lsbs, s) ∧
    Fits 20 s t ∧ ¬ finalValueWraps s.ac ∧ weightedSum (lsbParams.xq.take lsbParams.lastnz) + 400000 < 2 ^ 31 ∧
    step = stepOf (8 * 20) (Lc3Config.new .hz16000 .tenMs).fsInd lsbParams.ggInd ∧
    (∀ k < lsbParams.lastnz, |((lsbParams.xq.getD k 0 : Int) : ℝ) * step - lines.getD k 0| ≤ 5 / 8 * step) ∧ lines.getD 2 0 ≠ 0 := by
  refine ⟨⟨⟨0, 12, 32⟩, [0, 0, 0, 0, 0, 0, 0, 0, 0, 0, 0, 0, 6, 0, 96, 114, 103, 24, 201, 3], ⟨12774144, 4142592, 1, 0, 0⟩⟩,
    [true, false], 61, lsbParams.xq.map (fun x : Int => (x : ℝ) * stepOf (8 * 20) (Lc3Config.new .hz16000 .tenMs).fsInd lsbParams.ggInd), _,
    example_side _ _ _ _ (by decide) (by decide) (by decide), example_data _ _ _ _ (by decide) (by decide), rfl,
    by decide +kernel, ⟨by decide +kernel, by decide +kernel⟩, by unfold finalValueWraps; decide +kernel, by decide +kernel, rfl, ?_, ?_⟩
  · intro k hk
    generalize hst : stepOf (8 * 20) (Lc3Config.new .hz16000 .tenMs).fsInd lsbParams.ggInd = st
    have hpos : 0 < st := by rw [← hst]; unfold stepOf; positivity
    have : (lsbParams.xq.map fun x : Int => (x : ℝ) * st).getD k 0 = ((lsbParams.xq.getD k 0 : Int) : ℝ) * st := by
      have hk' : k < lsbParams.xq.length := by
        have : lsbParams.xq.length = lsbParams.lastnz := rfl
        omega
      rw [List.getD_eq_getElem _ _ (by simpa using hk'), List.getD_eq_getElem _ _ hk', List.getElem_map]
    rw [this, sub_self, abs_zero]
    positivity
  · show ((5 : Int) : ℝ) * _ ≠ 0
    refine mul_ne_zero (by norm_num) ?_
    unfold stepOf
    positivity

/-- **C80** for the encoder: the lines are those the analysis passes to the quantiser. -/
theorem C80_encoder {checks : Bool} {f : SamplingFrequency} {d : FrameDuration} {ch : EncChannel ℝ} {x : List Int} {buf : List Nat}
    {a : EncAnalysis ℝ} {s : EncSt} {t : Nat} (h : CodedLsbFrame checks f d ch x buf a s t) {spec : List ℝ}
    (hsp : spec.length = (Lc3Config.new f d).ne) :
    ∃ ch' bytes si ad X deq, encodeChannel (Lc3Config.new f d) ch x buf = .ok (ch', bytes) ∧
      readFrame checks (Lc3Config.new f d) bytes = .ok (si, ad, X) ∧ dequantise (Lc3Config.new f d) spec si ad X = .ok deq ∧
      deq.length = (Lc3Config.new f d).ne ∧ a.lines.length = (Lc3Config.new f d).ne ∧
      ∀ k, k < a.p.lastnz → ∀ step err : ℝ, step = stepOf (8 * buf.length) (Lc3Config.new f d).fsInd a.p.ggInd →
        err = |deq.getD k 0 - a.lines.getD k 0| →
        err ≤ 21 / 8 * step ∧ (2 ≤ (a.p.xq.getD k 0).natAbs → err ≤ 13 / 8 * step) ∧
        (¬ Escaped a.p (k / 2) ∧ ¬ Escaped a.p (2 * (k / 2)) → err ≤ 9 / 8 * step) := by
  obtain ⟨q, h1, h2, h3, -⟩ := encAnalyse_real h.inv h.len h.analysed h.range h.inside
  obtain ⟨lsbs, hb, hw⟩ := h.body
  obtain ⟨l1, l2, l3, l4, l5, l6, -⟩ := analysis_lines h.len h.analysed
  have hlz := h1.lastnzHi
  obtain ⟨s', si, ad, X, deq, e1, e2, e3, e4, e5⟩ := C80 (lines := a.lines) checks h1 h2 h.len h.mode hb h.fits hw h.seed h3
    (by
      intro k hk
      refine quant_error l4 (l5 _ ?_) (l6 k hk)
      rw [List.getD_eq_getElem _ _ (by omega)]
      exact List.getElem_mem _) hsp
  have he : ∃ ch', encodeChannel (Lc3Config.new f d) ch x buf = .ok (ch', s'.buf) := by
    unfold encodeChannel
    rw [h.analysed, Res.bind_ok, e1]
    exact ⟨_, rfl⟩
  obtain ⟨ch', he⟩ := he
  refine ⟨ch', s'.buf, si, ad, X, deq, he, e2, e3, e4, l1, ?_⟩
  intro k hk step err hstep herr
  rw [hstep, ← h3]
  exact e5 k hk err herr

/-- **C80**, the spectrum: as in `C49` the spectrum the decoder passes to its inverse transform differs from the spectrum of the encoder's
transform exactly by the error of the lines, sent through the decoder's noise shaping. -/
theorem C80_spectrum {checks : Bool} {f : SamplingFrequency} {d : FrameDuration} {ch : EncChannel ℝ} {x : List Int} {buf : List Nat}
    {a : EncAnalysis ℝ} {s : EncSt} {t : Nat} (h : CodedLsbFrame checks f d ch x buf a s t) {spec : List ℝ}
    (hsp : spec.length = (Lc3Config.new f d).ne) (hbw : ¬ (d = .tenMs ∧ a.p.bandwidthInd = 2))
    (hnz : TnsNoZero a.p.rcOrder a.p.rcI) :
    ∃ ch' bytes si ad X deq dec, encodeChannel (Lc3Config.new f d) ch x buf = .ok (ch', bytes) ∧
      readFrame checks (Lc3Config.new f d) bytes = .ok (si, ad, X) ∧ dequantise (Lc3Config.new f d) spec si ad X = .ok deq ∧
      specFromFrame (Lc3Config.new f d) spec si ad X = .ok dec ∧ dec.length = (Lc3Config.new f d).ne ∧
      a.mdct.length = (Lc3Config.new f d).ne ∧
      synth (Lc3Config.new f d) si ad (List.zipWith (· - ·) deq a.lines) = .ok (List.zipWith (· - ·) dec a.mdct) := by
  obtain ⟨q, h1, h2, h3, shaped, g1, g2, nn, tns, g3, g4, g5, g6, g7⟩ := encAnalyse_real h.inv h.len h.analysed h.range h.inside
  obtain ⟨ch', bytes, ys, c1, -, -, c3, c4, -⟩ := h.read h1 h2
  obtain ⟨l1, l2, l3, -⟩ := analysis_lines h.len h.analysed
  obtain ⟨deq, d1, d2, -⟩ := dequantise_lsb (N := buf.length) h1 h.mode c3 hsp
  obtain ⟨e1, e2⟩ := expected_tns g3 g5 g6 g7
  have hms : (Lc3Config.new f d).nMs = d := by cases f <;> cases d <;> rfl
  have hdec : tnsDecode (Lc3Config.new f d).nMs a.p.bandwidthInd a.p.numTns (expectedOrders a.p) (expectedTnsIdx a.p) a.lines =
      .ok shaped := by
    rw [e1, g5, ← g4]
    refine C15_partial g3 e2 (by rw [hms]; exact hbw) ?_
    intro f o k hf hk hz
    obtain ⟨i, i1, i2⟩ := e2 f o k hf hk
    rw [i2] at hz
    obtain rfl := Option.some.inj hz
    rw [← g7] at i1
    rw [← g6] at hf
    exact hnz f o k hf hk i1
  have hml : a.mdct.length = (Lc3Config.new f d).ne := by
    obtain ⟨freq, out, eb, nn, bwInd, nbitsBw, attack, det, sns, tns, ltpf, pf, quant, spec, res, nf, -, e2, -, -, -, -, -,
      -, -, -, rfl⟩ := encAnalyse_inv h.analysed
    simp only [List.length_take]
    omega
  obtain ⟨w, w1, w2, w3⟩ := tnsDecode_lin hdec (ys := deq) (by omega)
  obtain ⟨z, z1, z2, z3⟩ := snsDecode_lin g1 (ys := w) w2
  refine ⟨ch', bytes, _, _, _, deq, z, c1, c4, d1, ?_, by omega, hml, ?_⟩
  · unfold specFromFrame
    rw [d1, Res.bind_ok]
    have : tnsDecode (Lc3Config.new f d).nMs (expectedSide a.p q).bandwidth (expectedSide a.p q).numTnsFilters (expectedOrders a.p)
        (expectedTnsIdx a.p) deq = .ok w := w1
    simp only
    rw [this, Res.bind_ok, z1]
  · unfold synth
    have : tnsDecode (Lc3Config.new f d).nMs (expectedSide a.p q).bandwidth (expectedSide a.p q).numTnsFilters (expectedOrders a.p)
        (expectedTnsIdx a.p) (subL deq a.lines) = .ok (subL w shaped) := w3
    simp only
    show (tnsDecode (Lc3Config.new f d).nMs (expectedSide a.p q).bandwidth (expectedSide a.p q).numTnsFilters (expectedOrders a.p)
        (expectedTnsIdx a.p) (subL deq a.lines) >>= _) = _
    rw [this, Res.bind_ok, z3]
    rfl

end Lc3
