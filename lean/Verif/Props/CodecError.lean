import Verif.Props.EncoderFrame
import Verif.Props.DecoderSpectrum
import Verif.Lemmas.DecLinear
/-!
# C48, C49: the error of the codec in the spectrum

In exact arithmetic. `C48`: the lines the decoder reconstructs differ from the lines the quantiser got by at most a fixed fraction of
the quantiser step. `C49`: the decoder's spectrum is the spectrum of the encoder's transform plus the error of the quantiser, passed
through the decoder's noise shaping.
-/

namespace Lc3
open Scalar Spec

theorem zero_real : (zero : ℝ) = 0 := by show ((0 : ℚ) : ℝ) = 0; norm_num

theorem ofInt_real (x : Int) : (ofInt x : ℝ) = (x : ℝ) := by show ((x : ℚ) : ℝ) = x; norm_num

theorem refineLine_real (bit : Bool) {x : Int} (h : x ≠ 0) : refineLine bit (x : ℝ) = ((refined x bit : ℚ) : ℝ) := by
  have hp : pos (x : ℝ) = decide (0 < x) := by
    unfold pos
    rw [zero_real]
    show decide ((0 : ℝ) < (x : ℝ)) = _
    simp
  have h5 : (ofRat (3125 / 10000) : ℝ) = 5 / 16 := by show (((3125 / 10000 : ℚ)) : ℝ) = _; norm_num
  have h3 : (ofRat (1875 / 10000) : ℝ) = 3 / 16 := by show (((1875 / 10000 : ℚ)) : ℝ) = _; norm_num
  unfold refineLine refined
  rw [hp, h5, h3]
  cases bit <;> by_cases hx : 0 < x <;> simp [hx]

/-- the decoder side: line `k` is refined with bit number `rank k` -/
theorem residualLoop_real : ∀ (xs : List Int) (bits : List Bool) k (h : k < xs.length),
    (residualLoop bits (xs.map (ofInt : Int → ℝ)))[k]? =
      some (if xs[k] = 0 then 0 else
        match bits[rank xs k]? with
        | some b => ((refined xs[k] b : ℚ) : ℝ)
        | none => (xs[k] : ℝ))
  | [], _, _, h => by simp at h
  | x :: xs, bits, k, h => by
    have ih := fun bits k h => residualLoop_real xs bits k h
    have heq : (Scalar.eq (ofInt x : ℝ) zero) = decide (x = 0) := by
      rw [zero_real, ofInt_real]
      show decide ((x : ℝ) = 0) = _
      simp
    rw [List.map_cons, residualLoop.eq_def]
    simp only
    rw [heq]
    by_cases h0 : x = 0
    · subst h0
      simp only [decide_true, Bool.not_true, Bool.false_eq_true, if_false]
      cases k with
      | zero => simp [ofInt_real]
      | succ k =>
        rw [List.getElem?_cons_succ, rank_cons_zero]
        simp only [List.getElem_cons_succ]
        exact ih bits k (by simpa using h)
    · simp only [h0, decide_false, Bool.not_false, if_true]
      cases bits with
      | nil =>
        simp only [List.getElem?_nil]
        rw [← List.map_cons (f := (ofInt : Int → ℝ)), List.getElem?_map, List.getElem?_eq_getElem h]
        simp only [Option.map_some]
        congr 1
        split_ifs with hc
        · rw [hc, ofInt_real]; simp
        · rw [ofInt_real]
      | cons b bs =>
        simp only
        cases k with
        | zero => simp [h0, rank, ofInt_real, refineLine_real b h0]
        | succ k =>
          rw [List.getElem?_cons_succ, rank_cons_ne h0, List.getElem?_cons_succ]
          simp only [List.getElem_cons_succ]
          exact ih bs k (by simpa using h)

/-- rounding of the quantiser -/
theorem quantLine_real {g x : ℝ} (hg : 0 < g) (hb : |x| / g + 3 / 8 ≤ 32768) :
    (0 ≤ x → 0 ≤ quantLine g x ∧ -(3 / 8) ≤ x / g - quantLine g x ∧ x / g - quantLine g x ≤ 5 / 8) ∧
      (x < 0 → quantLine g x ≤ 0 ∧ -(5 / 8) ≤ x / g - quantLine g x ∧ x / g - quantLine g x ≤ 3 / 8) := by
  have h38 : (ofRat (3 / 8) : ℝ) = 3 / 8 := by show ((3 / 8 : ℚ) : ℝ) = 3 / 8; norm_num
  constructor
  · intro h
    have hge : geS x zero = true := by
      unfold geS
      rw [zero_real, Bool.or_eq_true]
      rcases h.lt_or_eq with h | h
      · exact .inl (decide_eq_true h)
      · exact .inr (decide_eq_true h.symm)
    unfold quantLine
    rw [if_pos hge, h38]
    rw [abs_of_nonneg h] at hb
    have h1 : (0 : ℝ) ≤ x / g + 3 / 8 := by positivity
    have e : toI16 (x / g + 3 / 8 : ℝ) = min 32767 ⌊x / g + 3 / 8⌋ := by
      unfold toI16
      show max (-32768) (min 32767 (realToI32 _)) = _
      unfold realToI32
      rw [if_pos h1]
      have h2 := Int.floor_nonneg.2 h1
      have h3 : ⌊x / g + 3 / 8⌋ ≤ 32768 := by
        have := Int.floor_mono hb
        simpa using this
      omega
    rw [e]
    have f1 := Int.floor_le (x / g + 3 / 8)
    have f2 := Int.lt_floor_add_one (x / g + 3 / 8)
    have f0 := Int.floor_nonneg.2 h1
    refine ⟨by omega, ?_, ?_⟩
    · have : ((min 32767 ⌊x / g + 3 / 8⌋ : ℤ) : ℝ) ≤ ⌊x / g + 3 / 8⌋ := by exact_mod_cast min_le_right _ _
      linarith
    · rcases min_choice (32767 : ℤ) ⌊x / g + 3 / 8⌋ with hm | hm
      · rw [hm]; push_cast; linarith
      · rw [hm]; linarith
  · intro h
    have hge : geS x zero = false := by
      unfold geS
      rw [zero_real, Bool.or_eq_false_iff]
      exact ⟨decide_eq_false (by show ¬ (0 : ℝ) < x; linarith), decide_eq_false (by show ¬ x = 0; linarith)⟩
    unfold quantLine
    rw [if_neg (by rw [hge]; decide), h38]
    rw [abs_of_neg h, neg_div] at hb
    have hx : x / g < 0 := div_neg_of_neg_of_pos h hg
    have h1 : ¬ (0 : ℝ) ≤ x / g - 3 / 8 := by linarith
    have f0 : ⌈x / g - 3 / 8⌉ ≤ 0 := Int.ceil_le.2 (by push_cast; linarith)
    have e : toI16 (x / g - 3 / 8 : ℝ) = ⌈x / g - 3 / 8⌉ := by
      unfold toI16
      show max (-32768) (min 32767 (realToI32 _)) = _
      unfold realToI32
      rw [if_neg h1]
      have h3 : (-32768 : ℤ) ≤ ⌈x / g - 3 / 8⌉ := by
        have h4 : (-32768 : ℝ) ≤ x / g - 3 / 8 := by linarith
        have := Int.ceil_mono h4
        have h5 : ⌈(-32768 : ℝ)⌉ = -32768 := by
          have := Int.ceil_intCast (R := ℝ) (-32768)
          push_cast at this
          exact this
        omega
      omega
    rw [e]
    have f1 := Int.le_ceil (x / g - 3 / 8)
    have f2 := Int.ceil_lt_add_one (x / g - 3 / 8)
    exact ⟨f0, by linarith, by linarith⟩

/-- quantisation and refinement of one line; the bit is the comparison of the encoder -/
theorem refine_error {g x : ℝ} (hg : 0 < g) (hb : |x| / g + 3 / 8 ≤ 32768) (h0 : quantLine g x ≠ 0) :
    |((refined (quantLine g x) (geS x (ofInt (quantLine g x) * g)) : ℚ) : ℝ) * g - x| ≤ 5 / 16 * g ∧
      (∀ b, |((refined (quantLine g x) b : ℚ) : ℝ) * g - x| ≤ 13 / 16 * g) ∧ |(quantLine g x : ℝ) * g - x| ≤ 5 / 8 * g := by
  obtain ⟨h1, h2⟩ := quantLine_real hg hb
  have hge : geS x (ofInt (quantLine g x) * g) = decide ((quantLine g x : ℝ) ≤ x / g) := by
    unfold geS
    rw [ofInt_real]
    show (decide ((quantLine g x : ℝ) * g < x) || decide (x = (quantLine g x : ℝ) * g)) = _
    simp only [le_div_iff₀ hg]
    rcases lt_trichotomy ((quantLine g x : ℝ) * g) x with h | h | h
    · simp [h, h.le]
    · simp [h]
    · simp [h.not_gt, h.not_ge, h.ne]
  generalize hq : quantLine g x = q at *
  have key : ∀ v e : ℝ, |v - x / g| ≤ e → |v * g - x| ≤ e * g := by
    intro v e hv
    have : v * g - x = (v - x / g) * g := by field_simp
    rw [this, abs_mul, abs_of_pos hg]
    exact mul_le_mul_of_nonneg_right hv hg.le
  rw [hge]
  rcases le_or_gt 0 x with hx | hx
  · obtain ⟨a1, a2, a3⟩ := h1 hx
    have hp : 0 < q := by omega
    refine ⟨key _ _ ?_, fun b => key _ _ ?_, key _ _ ?_⟩
    · by_cases hc : (q : ℝ) ≤ x / g
      · simp only [hc, decide_true, refined, if_true, if_pos hp]
        push_cast
        rw [abs_le]; constructor <;> linarith
      · simp only [hc, decide_false, refined, Bool.false_eq_true, if_false, if_pos hp]
        push_cast
        rw [abs_le]; constructor <;> linarith
    · cases b
      · simp only [refined, Bool.false_eq_true, if_false, if_pos hp]
        push_cast
        rw [abs_le]; constructor <;> linarith
      · simp only [refined, if_true, if_pos hp]
        push_cast
        rw [abs_le]; constructor <;> linarith
    · rw [abs_le]; constructor <;> linarith
  · obtain ⟨a1, a2, a3⟩ := h2 hx
    have hp : ¬ 0 < q := by omega
    refine ⟨key _ _ ?_, fun b => key _ _ ?_, key _ _ ?_⟩
    · by_cases hc : (q : ℝ) ≤ x / g
      · simp only [hc, decide_true, refined, if_true, if_neg hp]
        push_cast
        rw [abs_le]; constructor <;> linarith
      · simp only [hc, decide_false, refined, Bool.false_eq_true, if_false, if_neg hp]
        push_cast
        rw [abs_le]; constructor <;> linarith
    · cases b
      · simp only [refined, Bool.false_eq_true, if_false, if_neg hp]
        push_cast
        rw [abs_le]; constructor <;> linarith
      · simp only [refined, if_true, if_neg hp]
        push_cast
        rw [abs_le]; constructor <;> linarith
    · rw [abs_le]; constructor <;> linarith

/-- the lines of the analysis, their quantised values and the refinement bits -/
theorem analysis_lines {f : SamplingFrequency} {d : FrameDuration} {ch : EncChannel ℝ} {x : List Int} {nbytes : Nat}
    (hN : nbytes < 4096) {a : EncAnalysis ℝ} (h : encAnalyse (Lc3Config.new f d) ch x nbytes = .ok a) :
    a.lines.length = (Lc3Config.new f d).ne ∧ a.p.xq.length = (Lc3Config.new f d).ne ∧ CodedLength a.p.xq a.p.lastnz ∧
      0 < a.gg ∧ (∀ y ∈ a.lines, |y| / a.gg + 3 / 8 ≤ 32768) ∧
      (∀ k, k < a.p.lastnz → a.p.xq.getD k 0 = quantLine a.gg (a.lines.getD k 0)) ∧
      ∀ k, k < (Lc3Config.new f d).ne → a.p.xq.getD k 0 ≠ 0 → rank a.p.xq k < a.p.residual.length →
        a.p.residual[rank a.p.xq k]? = some (geS (a.lines.getD k 0) (ofInt (a.p.xq.getD k 0) * a.gg)) := by
  obtain ⟨freq, out, eb, nn, bwInd, nbitsBw, attack, det, sns, tns, ltpf, pf, quant, spec, res, nf, e1, e2, e3, e4, e5, e6, e7,
    e8, e9, e10, rfl⟩ := encAnalyse_inv h
  obtain ⟨c1, c2, -, c4⟩ := C27 f d e8
  obtain ⟨hl, -⟩ := quantRun_inv e8
  obtain ⟨p1, p2⟩ := C43 (by omega) e8
  have hne : (Lc3Config.new f d).ne ≤ 400 := by cases f <;> cases d <;> decide
  simp only
  refine ⟨hl, c2, c1, p1, p2, ?_, ?_⟩
  · intro k hk
    have := c1.le
    rw [c4 k hk, List.getD_eq_getElem _ _ (by simp; omega), List.getElem_map, List.getD_eq_getElem _ _ (by omega)]
  · intro k hk h0 hr
    obtain ⟨bs, g1, g2, g3⟩ := residualEncLoop_ok spec.gg ((spec.nbitsSpec : Int) - spec.nbitsTrunc + 4).toNat tns.lines spec.xq 0
      (by omega) (by omega)
    unfold residualEncode at e9
    simp only at e9
    split at e9
    · rw [if_neg (by omega), List.take_of_length_le (by omega), List.take_of_length_le (by omega), g1] at e9
      obtain rfl := Res.ok.inj e9
      rw [List.getD_eq_getElem _ _ (by omega)] at h0
      rw [g3 k (by omega) (by omega) h0 (by omega), List.getD_eq_getElem _ _ (by omega), List.getD_eq_getElem _ _ (by omega)]
    · obtain rfl := Res.ok.inj e9
      simp at hr

theorem noiseLevel_real {nf : Nat} (h : nf < 8) : 0 ≤ (noiseLevel nf : ℝ) ∧ (noiseLevel nf : ℝ) ≤ 1 / 2 := by
  have e : (noiseLevel nf : ℝ) = (8 - nf) / 16 := by
    unfold noiseLevel
    show (((8 : ℚ) : ℝ) - ((nf : ℚ) : ℝ)) / ((16 : ℚ) : ℝ) = _
    push_cast
    rfl
  rw [e]
  have : (nf : ℝ) ≤ 8 := by exact_mod_cast h.le
  constructor
  · apply div_nonneg <;> linarith
  · have : (0 : ℝ) ≤ nf := by positivity
    linarith

/-- the decoder's value of a line in quantiser steps: `x` the transmitted value, `bit` its refinement bit if there is one -/
noncomputable def decodedValue (x : Int) : Option Bool → ℝ
  | some b => ((refined x b : ℚ) : ℝ)
  | none => x

theorem dequantise_lines {f : SamplingFrequency} {d : FrameDuration} {p : FrameParams} {q : PulseIdx} {spec : List ℝ} {N : Nat}
    {bits : List Bool} (hs : SideOk (Lc3Config.new f d) p q) (hle : p.lastnz ≤ p.xq.length)
    (hzs : ∀ k, p.lastnz ≤ k → p.xq.getD k 0 = 0) (hl : p.xq.length = (Lc3Config.new f d).ne)
    (hm : p.lsbMode = false) (hsp : spec.length = (Lc3Config.new f d).ne) :
    ∃ deq : List ℝ, dequantise (Lc3Config.new f d) spec (expectedSide p q)
        ⟨expectedOrders p, expectedTnsIdx p, bits, expectedSeed p, expectedZero p, 8 * N⟩ (expectedX p) = .ok deq ∧
      deq.length = (Lc3Config.new f d).ne ∧
      ∀ k, k < (Lc3Config.new f d).ne → ∃ v : ℝ, deq.getD k 0 = v * globalGainFactor (8 * N) (Lc3Config.new f d).fsInd p.ggInd ∧
        (p.xq.getD k 0 ≠ 0 → v = decodedValue (p.xq.getD k 0) bits[rank p.xq k]?) ∧
        (p.xq.getD k 0 = 0 → |v| ≤ 1 / 2 ∧ (¬ Spec.Empty d p.bandwidthInd p.xq k → v = 0)) := by
  have hne : (Lc3Config.new f d).ne ≤ 400 ∧ (Lc3Config.new f d).nMs = d ∧ (Lc3Config.new f d).fsInd ≤ 4 := by
    cases f <;> cases d <;> decide
  have hX : expectedX p = p.xq ++ List.replicate (400 - p.xq.length) 0 := by
    unfold expectedX
    have h1 : p.xq = p.xq.take p.lastnz ++ List.replicate (p.xq.length - p.lastnz) 0 := by
      apply List.ext_getElem
      · simp; omega
      · intro i h1 h2
        by_cases hi : i < p.lastnz
        · rw [List.getElem_append_left (by simp; omega)]; simp
        · rw [List.getElem_append_right (by simp; omega)]
          have := hzs i (by omega)
          rw [List.getD_eq_getElem _ _ h1] at this
          simp [this]
    conv_rhs => rw [h1]
    rw [List.append_assoc, ← List.replicate_add]
    congr 2
    rw [← h1]
    omega
  have hget : ∀ k, (expectedX p).getD k 0 = p.xq.getD k 0 := by
    intro k
    rw [hX]
    by_cases hk : k < p.xq.length
    · rw [List.getD_append _ _ _ _ hk]
    · rw [List.getD_append_right _ _ _ _ (by omega), List.getD_eq_default p.xq _ (by omega)]
      by_cases hk2 : k - p.xq.length < 400 - p.xq.length
      · rw [List.getD_eq_getElem _ _ (by simpa using hk2)]; simp
      · rw [List.getD_eq_default _ _ (by simpa using hk2)]
  have hemp : ∀ k, Spec.Empty d p.bandwidthInd (expectedX p) k ↔ Spec.Empty d p.bandwidthInd p.xq k := by
    intro k
    unfold Spec.Empty
    simp only [hget]
  have hlen : (expectedX p).length = 400 := by rw [hX]; simp; omega
  have hbw := hs.bw
  have hlim : bandLimit d p.bandwidthInd ≤ (expectedX p).length := by
    rw [hlen]
    cases d <;> simp only [bandLimit] <;> omega
  unfold dequantise
  rw [if_neg (by omega)]
  simp only
  have htake : (expectedX p).take (Lc3Config.new f d).ne = p.xq := by
    rw [hX, List.take_append_of_le_length (by omega), List.take_of_length_le (by omega)]
  have hz : zipInto spec ((p.xq.map (ofInt : Int → ℝ))) = p.xq.map ofInt := by
    unfold zipInto
    rw [List.take_of_length_le (by simp; omega), List.drop_of_length_le (by simp; omega), List.append_nil]
  have hm' : (expectedSide p q).lsbMode = false := hm
  have hseed : expectedSeed p < 65536 := Nat.mod_lt _ (by norm_num)
  rw [htake, hz, hm']
  unfold residualDecode
  simp only [Bool.not_false, if_true]
  have hb : (expectedSide p q).bandwidth ≤ 4 := by
    show p.bandwidthInd ≤ 4
    omega
  obtain ⟨k1, k2⟩ := C13 (α := ℝ) d (expectedSide p q).noiseFactor (residualLoop bits (p.xq.map (ofInt : Int → ℝ))) hb hseed hlim
  have hrl : (residualLoop bits (p.xq.map (ofInt : Int → ℝ))).length = p.xq.length := by
    have := residualDecode_length (α := ℝ) false bits (p.xq.map (ofInt : Int → ℝ))
    unfold residualDecode at this
    simpa using this
  have hval : ∀ k, k < (Lc3Config.new f d).ne → ∃ v : ℝ,
      (residualLoop bits (p.xq.map (ofInt : Int → ℝ)))[k]? = some v ∧
      (p.xq.getD k 0 ≠ 0 → v = decodedValue (p.xq.getD k 0) bits[rank p.xq k]?) ∧ (p.xq.getD k 0 = 0 → v = 0) := by
    intro k hk
    refine ⟨_, residualLoop_real p.xq bits k (by omega), ?_, ?_⟩
    · intro h0
      rw [List.getD_eq_getElem _ _ (by omega)] at h0 ⊢
      rw [if_neg h0]
      cases bits[rank p.xq k]? <;> rfl
    · intro h0
      rw [List.getD_eq_getElem _ _ (by omega)] at h0
      rw [if_pos h0]
  rw [hne.2.1]
  generalize residualLoop bits (p.xq.map (ofInt : Int → ℝ)) = R at *
  cases expectedZero p with
  | true =>
    rw [k2, Res.bind_ok]
    refine ⟨_, rfl, by unfold globalGain; rw [List.length_map]; omega, ?_⟩
    intro k hk
    obtain ⟨v, v1, v2, v3⟩ := hval k hk
    refine ⟨v, ?_, v2, ?_⟩
    · unfold globalGain
      rw [List.getD_eq_getElem?_getD, List.getElem?_map, v1]
      rfl
    · intro h0
      rw [v3 h0]
      simp
  | false =>
    rw [k1, Res.bind_ok]
    refine ⟨_, rfl, by unfold globalGain; simp; omega, ?_⟩
    intro k hk
    obtain ⟨v, v1, v2, v3⟩ := hval k hk
    refine ⟨filledLine d p.bandwidthInd (expectedSeed p) p.noiseFactor (expectedX p) k v, ?_, ?_, ?_⟩
    · unfold globalGain
      rw [List.getD_eq_getElem?_getD, List.getElem?_map, List.getElem?_map, List.getElem?_zipIdx, v1]
      simp only [Option.map_some, Option.getD_some, Nat.zero_add]
      rfl
    · intro h0
      rw [C13_unchanged, v2 h0]
      rintro ⟨-, hk2, hall⟩
      exact h0 (by rw [← hget]; exact hall k (by omega) (by omega) hk2)
    · intro h0
      by_cases he : Spec.Empty d p.bandwidthInd (expectedX p) k
      · obtain ⟨n1, n2⟩ := noiseLevel_real (nf := p.noiseFactor) hs.noise
        refine ⟨?_, fun hn => absurd ((hemp k).1 he) hn⟩
        rcases C13_level (seed := expectedSeed p) (nf := p.noiseFactor) v he with h | h
        · rw [h, abs_of_nonneg n1]; exact n2
        · rw [h, abs_neg, abs_of_nonneg n1]; exact n2
      · rw [C13_unchanged _ he, v3 h0]
        simp

theorem dequantise_real {f : SamplingFrequency} {d : FrameDuration} {p : FrameParams} {q : PulseIdx} {spec : List ℝ} {N : Nat}
    {bits : List Bool} (hs : SideOk (Lc3Config.new f d) p q) (hc : CodedLength p.xq p.lastnz) (hl : p.xq.length = (Lc3Config.new f d).ne)
    (hm : p.lsbMode = false) (hsp : spec.length = (Lc3Config.new f d).ne) :
    ∃ deq : List ℝ, dequantise (Lc3Config.new f d) spec (expectedSide p q)
        ⟨expectedOrders p, expectedTnsIdx p, bits, expectedSeed p, expectedZero p, 8 * N⟩ (expectedX p) = .ok deq ∧
      deq.length = (Lc3Config.new f d).ne ∧
      ∀ k, k < (Lc3Config.new f d).ne → ∃ v : ℝ, deq.getD k 0 = v * globalGainFactor (8 * N) (Lc3Config.new f d).fsInd p.ggInd ∧
        (p.xq.getD k 0 ≠ 0 → v = decodedValue (p.xq.getD k 0) bits[rank p.xq k]?) ∧
        (p.xq.getD k 0 = 0 → |v| ≤ 1 / 2 ∧ (¬ Spec.Empty d p.bandwidthInd p.xq k → v = 0)) :=
  dequantise_lines hs hc.le hc.zeros hl hm hsp

/-- **C48** In exact arithmetic: for every line that was not cut off (it is below the coded length, or so small that it is quantised to
zero anyway), the line the decoder reconstructs differs from the line the quantiser got by at most 5/16 of the quantiser step if the
refinement bit of the line was transmitted, by at most 13/16 of a step if the transmitted value is not zero, and by at most 9/8 of a step
(5/8 without noise filling) if it is zero. -/
theorem C48 {checks : Bool} {f : SamplingFrequency} {d : FrameDuration} {ch : EncChannel ℝ} {x : List Int} {buf : List Nat}
    {a : EncAnalysis ℝ} {s : EncSt} {t : Nat} (h : CodedFrame checks f d ch x buf a s t) {spec : List ℝ}
    (hsp : spec.length = (Lc3Config.new f d).ne) :
    ∃ ch' bytes si ad X deq, encodeChannel (Lc3Config.new f d) ch x buf = .ok (ch', bytes) ∧
      readFrame checks (Lc3Config.new f d) bytes = .ok (si, ad, X) ∧ dequantise (Lc3Config.new f d) spec si ad X = .ok deq ∧
      deq.length = (Lc3Config.new f d).ne ∧ a.lines.length = (Lc3Config.new f d).ne ∧
      ∀ k, k < (Lc3Config.new f d).ne → ∀ step err : ℝ, step = stepOf (8 * buf.length) (Lc3Config.new f d).fsInd a.p.ggInd →
        err = |deq.getD k 0 - a.lines.getD k 0| → (k < a.p.lastnz ∨ |a.lines.getD k 0| < 5 / 8 * step) →
        (a.p.xq.getD k 0 ≠ 0 → err ≤ 13 / 16 * step ∧
          (rank a.p.xq k < min (encoderRoom buf.length s t) a.p.residual.length → err ≤ 5 / 16 * step)) ∧
        (a.p.xq.getD k 0 = 0 → err ≤ 9 / 8 * step ∧ (¬ Spec.Empty d a.p.bandwidthInd a.p.xq k → err ≤ 5 / 8 * step)) := by
  obtain ⟨q, h1, h2, h3, -⟩ := encAnalyse_real h.inv h.len h.analysed h.range h.inside
  obtain ⟨ch', bytes, bits, c1, -, -, c4, -, c6⟩ := h.read h1 h2
  obtain ⟨l1, l2, l3, l4, l5, l6, l7⟩ := analysis_lines h.len h.analysed
  obtain ⟨deq, d1, d2, d3⟩ := dequantise_real (bits := bits) (N := buf.length) h1 l3 l2 h.mode hsp
  refine ⟨ch', bytes, _, _, _, deq, c1, c4, d1, d2, l1, ?_⟩
  intro k hk step err hstep herr hkeep
  rw [← h3] at hstep
  have hg : (globalGainFactor (8 * buf.length) (Lc3Config.new f d).fsInd a.p.ggInd : ℝ) = a.gg := by
    have hN := h.len
    rw [← (C25 (by omega)).2, h3, ggOffEnc_spec (by omega)]
    unfold ggValue stepOf
    show (10 : ℝ) ^ ((((((a.p.ggInd : ℕ) : ℤ) : ℚ) : ℝ) + (((gainOffset (8 * buf.length) (Lc3Config.new f d).fsInd : ℤ) : ℚ) : ℝ)) /
      ((28 : ℚ) : ℝ)) = _
    push_cast
    rfl
  obtain ⟨v, v1, v2, v3⟩ := d3 k hk
  rw [hg, ← hstep] at v1
  have hpos : 0 < step := by rw [hstep]; exact l4
  have hmem : a.lines.getD k 0 ∈ a.lines := by
    rw [List.getD_eq_getElem _ _ (by omega)]
    exact List.getElem_mem _
  have hb := l5 _ hmem
  rw [← hstep] at hb
  generalize hy : a.lines.getD k 0 = y at *
  -- the transmitted value is the rounded line, also beyond the coded length
  have hq : a.p.xq.getD k 0 = quantLine step y := by
    by_cases hlt : k < a.p.lastnz
    · rw [l6 k hlt, hy, hstep]
    · have hz := l3.zeros k (by omega)
      have hsm := hkeep.resolve_left hlt
      have hab : |y / step| < 5 / 8 := by
        rw [abs_div, abs_of_pos hpos, div_lt_iff₀ hpos]
        exact hsm
      obtain ⟨b1, b2⟩ := abs_lt.1 hab
      obtain ⟨r1, r2⟩ := quantLine_real hpos hb
      rw [hz]
      rcases le_or_gt 0 y with hy0 | hy0
      · obtain ⟨r3, r4, r5⟩ := r1 hy0
        have : (quantLine step y : ℝ) < 1 := by linarith
        have : quantLine step y < 1 := by exact_mod_cast this
        omega
      · obtain ⟨r3, r4, r5⟩ := r2 hy0
        have : (-1 : ℝ) < quantLine step y := by linarith
        have : -1 < quantLine step y := by exact_mod_cast this
        omega
  rw [herr, v1]
  constructor
  · intro h0
    obtain ⟨r1, r2, r3⟩ := refine_error hpos hb (hq ▸ h0)
    have hv := v2 h0
    rw [hq] at hv
    constructor
    · rw [hv]
      cases bits[rank a.p.xq k]? with
      | none =>
        have : (5 : ℝ) / 8 * step ≤ 13 / 16 * step := by nlinarith
        exact r3.trans this
      | some b => exact r2 b
    · intro hr
      have hbit : bits[rank a.p.xq k]? = some (geS y (ofInt (quantLine step y) * step)) := by
        rw [c6 _ (by omega) (by omega) ?_, l7 k hk h0 (by omega), hy, hq, hstep]
        have hkl : k < a.p.lastnz := by
          by_contra hc
          exact h0 (l3.zeros k (by omega))
        have hle := l3.le
        unfold nonZeroLines rank
        have hsplit : a.p.xq.take a.p.lastnz = a.p.xq.take k ++ a.p.xq.getD k 0 :: (a.p.xq.take a.p.lastnz).drop (k + 1) := by
          have e1 : (a.p.xq.take a.p.lastnz).take k = a.p.xq.take k := by rw [List.take_take]; congr 1; omega
          have e2 : (a.p.xq.take a.p.lastnz).drop k = a.p.xq.getD k 0 :: (a.p.xq.take a.p.lastnz).drop (k + 1) := by
            rw [List.drop_eq_getElem_cons (by simp; omega), List.getElem_take, List.getD_eq_getElem _ _ (by omega)]
          rw [← e1, ← e2, List.take_append_drop]
        rw [hsplit, List.filter_append, List.filter_cons_of_pos (by simpa using h0)]
        simp
      rw [hv, hbit]
      exact r1
  · intro h0
    obtain ⟨w1, w2⟩ := v3 h0
    have hyb : |y| ≤ 5 / 8 * step := by
      obtain ⟨r1, r2⟩ := quantLine_real hpos hb
      rw [← hq, h0] at r1 r2
      rcases le_or_gt 0 y with hy0 | hy0
      · obtain ⟨-, r4, r5⟩ := r1 hy0
        push_cast at r5
        rw [abs_of_nonneg hy0, ← div_le_iff₀ hpos]
        linarith
      · obtain ⟨-, r4, r5⟩ := r2 hy0
        push_cast at r4
        rw [abs_of_neg hy0, ← div_le_iff₀ hpos, neg_div]
        linarith
    constructor
    · calc |v * step - y| ≤ |v * step| + |y| := abs_sub _ _
        _ ≤ 1 / 2 * step + 5 / 8 * step := by
            rw [abs_mul, abs_of_pos hpos]
            have := mul_le_mul_of_nonneg_right w1 hpos.le
            linarith
        _ = 9 / 8 * step := by ring
    · intro he
      rw [w2 he]
      simpa using hyb

/-- the orders and indices a decoder reports are those the encoder filtered with -/
theorem expected_tns {cfg : Lc3Config} {x : List ℝ} {bw nbits : Nat} {nn : Bool} {res : TnsResult ℝ} {p : FrameParams}
    (h : tnsEncRun cfg x bw nbits nn = .ok res) (h1 : p.numTns = res.numFilters) (h2 : p.rcOrder = res.rcOrder) (h3 : p.rcI = res.rcI) :
    expectedOrders p = res.rcOrder ∧ TnsSent res.rcOrder res.rcI (expectedTnsIdx p) := by
  obtain ⟨t1, t2, t3, t4, t5, t6⟩ := tnsEncRun_params h
  obtain ⟨tp, ints, i1, i2, i3, i4, i5, i6, i7, -⟩ := tnsEncRun_facts h
  have hn : res.numFilters = 1 ∨ res.numFilters = 2 := by rw [t1]; split <;> simp
  have ho : expectedOrders p = res.rcOrder := by
    unfold expectedOrders
    rw [h1, h2, i6, i5, List.take_append_of_le_length (by simp [i2]), List.take_of_length_le (by simp [i2])]
  refine ⟨ho, ?_⟩
  intro f o k hf hk
  have hf2 : f < 2 := by
    have := (List.getElem?_eq_some_iff.1 hf).1
    omega
  have ho8 : o ≤ 8 := t3 o (List.mem_of_getElem? hf)
  have hfn : f < res.numFilters := by
    by_contra hc
    have : res.numFilters = 1 := by omega
    have hf1 : f = 1 := by omega
    subst hf1
    rw [i6, ← i5, this, List.getElem?_append_right (by simp [i2, ← i5, this])] at hf
    have hl : ints.length = 1 := by omega
    simp [hl] at hf
    omega
  have hg : p.rcOrder.getD f 0 = o := by rw [h2, List.getD_eq_getElem?_getD, hf]; rfl
  have hlt : f * 8 + k < res.rcI.length := by omega
  refine ⟨_, List.getElem?_eq_getElem hlt, ?_⟩
  have hc : (expectedCoefs p f)[k]? = some res.rcI[f * 8 + k] := by
    unfold expectedCoefs
    rw [hg, h3, List.getElem?_append_left (by simp; omega), List.getElem?_take_of_lt hk, List.getElem?_drop, Nat.mul_comm 8,
      List.getElem?_eq_getElem hlt]
  have hcl : (expectedCoefs p 0).length = 8 := by
    unfold expectedCoefs
    have h0 : p.rcOrder.getD 0 0 ≤ 8 := by
      rw [h2, List.getD_eq_getElem _ _ (by omega)]
      exact t3 _ (List.getElem_mem _)
    rw [h3]
    simp only [List.length_append, List.length_take, List.length_drop, List.length_replicate]
    omega
  unfold expectedTnsIdx
  rw [h1]
  obtain rfl | rfl : f = 0 ∨ f = 1 := by omega
  · have : k < (expectedCoefs p 0).length := by omega
    simp only [Nat.zero_mul, Nat.zero_add] at hc ⊢
    rw [List.getElem?_append_left this]
    exact hc
  · have h2' : res.numFilters = 2 := by omega
    rw [h2', if_neg (by omega), List.getElem?_append_right (by omega), hcl, show 1 * 8 + k - 8 = k by omega]
    exact hc

/-- the decoder's way from dequantised lines to the spectrum -/
noncomputable def synth (cfg : Lc3Config) (si : SideInfo) (ad : ArithmeticData) (l : List ℝ) : Res (List ℝ) :=
  tnsDecode cfg.nMs si.bandwidth si.numTnsFilters ad.rcOrder ad.rcInts l >>= snsDecode cfg si.snsVq

/-- **C49** In exact arithmetic (bandwidth index 2 with 10 ms frames and coefficient index 0 excluded, see `C15`): the spectrum the
decoder passes to its inverse transform differs from the spectrum of the encoder's transform exactly by the error of the quantiser
(bounded in `C48`), sent through the decoder's noise shaping. -/
theorem C49 {checks : Bool} {f : SamplingFrequency} {d : FrameDuration} {ch : EncChannel ℝ} {x : List Int} {buf : List Nat}
    {a : EncAnalysis ℝ} {s : EncSt} {t : Nat} (h : CodedFrame checks f d ch x buf a s t) {spec : List ℝ}
    (hsp : spec.length = (Lc3Config.new f d).ne) (hbw : ¬ (d = .tenMs ∧ a.p.bandwidthInd = 2))
    (hnz : TnsNoZero a.p.rcOrder a.p.rcI) :
    ∃ ch' bytes si ad X deq dec, encodeChannel (Lc3Config.new f d) ch x buf = .ok (ch', bytes) ∧
      readFrame checks (Lc3Config.new f d) bytes = .ok (si, ad, X) ∧ dequantise (Lc3Config.new f d) spec si ad X = .ok deq ∧
      specFromFrame (Lc3Config.new f d) spec si ad X = .ok dec ∧ dec.length = (Lc3Config.new f d).ne ∧
      a.mdct.length = (Lc3Config.new f d).ne ∧
      synth (Lc3Config.new f d) si ad (List.zipWith (· - ·) deq a.lines) = .ok (List.zipWith (· - ·) dec a.mdct) := by
  obtain ⟨q, h1, h2, h3, shaped, g1, g2, nn, tns, g3, g4, g5, g6, g7⟩ := encAnalyse_real h.inv h.len h.analysed h.range h.inside
  obtain ⟨ch', bytes, bits, c1, -, -, c4, -, -⟩ := h.read h1 h2
  obtain ⟨l1, l2, l3, -⟩ := analysis_lines h.len h.analysed
  obtain ⟨deq, d1, d2, -⟩ := dequantise_real (bits := bits) (N := buf.length) h1 l3 l2 h.mode hsp
  obtain ⟨e1, e2⟩ := expected_tns g3 g5 g6 g7
  have hms : (Lc3Config.new f d).nMs = d := by cases f <;> cases d <;> rfl
  have hdec : tnsDecode (Lc3Config.new f d).nMs a.p.bandwidthInd a.p.numTns (expectedOrders a.p) (expectedTnsIdx a.p) a.lines =
      .ok shaped := by
    rw [e1, g5, ← g4]
    refine C15_partial g3 e2 (by rw [hms]; exact hbw) ?_
    intro f o k hf hk hz
    obtain ⟨i, i1, i2⟩ := e2 f o k hf hk
    rw [i2] at hz
    obtain rfl := Option.some.inj hz
    rw [← g7] at i1
    rw [← g6] at hf
    exact hnz f o k hf hk i1
  have hml : a.mdct.length = (Lc3Config.new f d).ne := by
    obtain ⟨freq, out, eb, nn, bwInd, nbitsBw, attack, det, sns, tns, ltpf, pf, quant, spec, res, nf, -, e2, -, -, -, -, -,
      -, -, -, rfl⟩ := encAnalyse_inv h.analysed
    simp only [List.length_take]
    omega
  obtain ⟨w, w1, w2, w3⟩ := tnsDecode_lin hdec (ys := deq) (by omega)
  obtain ⟨z, z1, z2, z3⟩ := snsDecode_lin g1 (ys := w) w2
  refine ⟨ch', bytes, _, _, _, deq, z, c1, c4, d1, ?_, by omega, hml, ?_⟩
  · unfold specFromFrame
    rw [d1, Res.bind_ok]
    have : tnsDecode (Lc3Config.new f d).nMs (expectedSide a.p q).bandwidth (expectedSide a.p q).numTnsFilters (expectedOrders a.p)
        (expectedTnsIdx a.p) deq = .ok w := w1
    simp only
    rw [this, Res.bind_ok, z1]
  · unfold synth
    have : tnsDecode (Lc3Config.new f d).nMs (expectedSide a.p q).bandwidth (expectedSide a.p q).numTnsFilters (expectedOrders a.p)
        (expectedTnsIdx a.p) (subL deq a.lines) = .ok (subL w shaped) := w3
    simp only
    show (tnsDecode (Lc3Config.new f d).nMs (expectedSide a.p q).bandwidth (expectedSide a.p q).numTnsFilters (expectedOrders a.p)
        (expectedTnsIdx a.p) (subL deq a.lines) >>= _) = _
    rw [this, Res.bind_ok, z3]
    rfl

end Lc3
