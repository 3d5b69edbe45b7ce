import Verif.Props.CodecError
import Verif.Props.EncoderFrame32
/-!
# C99: the quantisation error of a decoded line in binary32

`C48` for the arithmetic the code uses. The refinement of a line is exact in binary32, the division and the comparison of the encoder and
the multiplication of the decoder are rounded.
-/

namespace Lc3
open Scalar Spec

namespace F32

/-- the decoder's value of a line in quantiser steps: `x` the transmitted value, `bit` its refinement bit if there is one -/
def decodedStep (x : Int) : Option Bool → ℚ
  | some b => refined x b
  | none => x

theorem noiseLevel_f32 (el : Elem) {nf : Nat} (h : nf < 8) :
    ∃ v : ℚ, @noiseLevel F32 (scalar el) nf = fin v ∧ 0 ≤ v ∧ v ≤ 1 / 2 := by
  refine ⟨((8 - nf : ℤ) : ℚ) / 16, ?_, ?_, ?_⟩
  · have h8 : rnd 8 = fin 8 := by simpa using rnd_int (n := 8) (by norm_num)
    have h16 : rnd 16 = fin 16 := by simpa using rnd_int (n := 16) (by norm_num)
    have hn : rnd (nf : ℚ) = fin nf := by simpa using rnd_int (n := nf) (by rw [abs_le]; omega)
    have hs : rnd ((8 : ℚ) + -(nf : ℚ)) = fin (((8 - nf : ℤ) : ℚ)) := by
      have := rnd_int (n := 8 - nf) (by rw [abs_le]; omega)
      rw [← this]
      congr 1
      push_cast
      ring
    unfold noiseLevel
    show F32.div (F32.sub (rnd 8) (rnd (nf : ℚ))) (rnd 16) = _
    rw [h8, h16, hn]
    show F32.div (rnd ((8 : ℚ) + -(nf : ℚ))) (fin 16) = _
    rw [hs]
    show (if (16 : ℚ) = 0 then (if (((8 - nf : ℤ) : ℚ)) = 0 then nan else inf (decide (((8 - nf : ℤ) : ℚ) < 0))) else
      rnd (((8 - nf : ℤ) : ℚ) / 16)) = _
    rw [if_neg (by norm_num)]
    exact rnd_sixteenth (by rw [abs_lt]; omega)
  · have : (0 : ℚ) ≤ ((8 - nf : ℤ) : ℚ) := by exact_mod_cast (by omega : (0 : ℤ) ≤ 8 - nf)
    positivity
  · have : ((8 - nf : ℤ) : ℚ) ≤ 8 := by exact_mod_cast (by omega : (8 - nf : ℤ) ≤ 8)
    linarith

/-- the lines of the decoder: refined values times the gain -/
theorem dequantise_f32 (el : Elem) {f : SamplingFrequency} {d : FrameDuration} {p : FrameParams} {q : PulseIdx} {spec : List F32} {N : Nat}
    {bits : List Bool} (hs : SideOk (Lc3Config.new f d) p q) (hc : CodedLength p.xq p.lastnz) (hl : p.xq.length = (Lc3Config.new f d).ne)
    (hb : ∀ v ∈ p.xq, |v| ≤ 32768) (hm : p.lsbMode = false) (hsp : spec.length = (Lc3Config.new f d).ne) :
    ∃ deq : List F32, @dequantise F32 (scalar el) (Lc3Config.new f d) spec (expectedSide p q)
        ⟨expectedOrders p, expectedTnsIdx p, bits, expectedSeed p, expectedZero p, 8 * N⟩ (expectedX p) = .ok deq ∧
      deq.length = (Lc3Config.new f d).ne ∧
      ∀ k, k < (Lc3Config.new f d).ne → ∃ v : ℚ,
        deq.getD k (fin 0) = F32.mul (fin v) (@globalGainFactor F32 (scalar el) (8 * N) (Lc3Config.new f d).fsInd p.ggInd) ∧
        (p.xq.getD k 0 ≠ 0 → v = decodedStep (p.xq.getD k 0) bits[rank p.xq k]?) ∧
        (p.xq.getD k 0 = 0 → |v| ≤ 1 / 2 ∧ (¬ Spec.Empty d p.bandwidthInd p.xq k → v = 0)) := by
  letI := scalar el
  have hle := hc.le
  have hzs := hc.zeros
  have hne : (Lc3Config.new f d).ne ≤ 400 ∧ (Lc3Config.new f d).nMs = d ∧ (Lc3Config.new f d).fsInd ≤ 4 := by
    cases f <;> cases d <;> decide
  have hX : expectedX p = p.xq ++ List.replicate (400 - p.xq.length) 0 := by
    unfold expectedX
    have h1 : p.xq = p.xq.take p.lastnz ++ List.replicate (p.xq.length - p.lastnz) 0 := by
      apply List.ext_getElem
      · simp; omega
      · intro i h1 h2
        by_cases hi : i < p.lastnz
        · rw [List.getElem_append_left (by simp; omega)]; simp
        · rw [List.getElem_append_right (by simp; omega)]
          have := hzs i (by omega)
          rw [List.getD_eq_getElem _ _ h1] at this
          simp [this]
    conv_rhs => rw [h1]
    rw [List.append_assoc, ← List.replicate_add]
    congr 2
    rw [← h1]
    omega
  have hget : ∀ k, (expectedX p).getD k 0 = p.xq.getD k 0 := by
    intro k
    rw [hX]
    by_cases hk : k < p.xq.length
    · rw [List.getD_append _ _ _ _ hk]
    · rw [List.getD_append_right _ _ _ _ (by omega), List.getD_eq_default p.xq _ (by omega)]
      by_cases hk2 : k - p.xq.length < 400 - p.xq.length
      · rw [List.getD_eq_getElem _ _ (by simpa using hk2)]; simp
      · rw [List.getD_eq_default _ _ (by simpa using hk2)]
  have hemp : ∀ k, Spec.Empty d p.bandwidthInd (expectedX p) k ↔ Spec.Empty d p.bandwidthInd p.xq k := by
    intro k
    unfold Spec.Empty
    simp only [hget]
  have hlen : (expectedX p).length = 400 := by rw [hX]; simp; omega
  have hbw := hs.bw
  have hlim : bandLimit d p.bandwidthInd ≤ (expectedX p).length := by
    rw [hlen]
    cases d <;> simp only [bandLimit] <;> omega
  unfold dequantise
  rw [if_neg (by omega)]
  simp only
  have htake : (expectedX p).take (Lc3Config.new f d).ne = p.xq := by
    rw [hX, List.take_append_of_le_length (by omega), List.take_of_length_le (by omega)]
  have hint : p.xq.map (ofInt : Int → F32) = p.xq.map (fun x : Int => fin (x : ℚ)) := by
    apply List.map_congr_left
    intro v hv
    exact rnd_int (hb v hv)
  have hz : zipInto spec ((p.xq.map (fun x : Int => fin (x : ℚ)))) = p.xq.map (fun x : Int => fin (x : ℚ)) := by
    unfold zipInto
    rw [List.take_of_length_le (by simp; omega), List.drop_of_length_le (by simp; omega), List.append_nil]
  have hm' : (expectedSide p q).lsbMode = false := hm
  have hseed : expectedSeed p < 65536 := Nat.mod_lt _ (by norm_num)
  rw [htake, hint, hz, hm']
  unfold residualDecode
  simp only [Bool.not_false, if_true]
  have hb4 : (expectedSide p q).bandwidth ≤ 4 := by
    show p.bandwidthInd ≤ 4
    omega
  obtain ⟨k1, k2⟩ := C13 (α := F32) d (expectedSide p q).noiseFactor (residualLoop bits (p.xq.map (fun x : Int => fin (x : ℚ)))) hb4 hseed hlim
  have hrl : (residualLoop bits (p.xq.map (fun x : Int => fin (x : ℚ)))).length = p.xq.length := by
    have := residualDecode_length (α := F32) false bits (p.xq.map (fun x : Int => fin (x : ℚ)))
    unfold residualDecode at this
    simpa using this
  have hval : ∀ k, k < (Lc3Config.new f d).ne → ∃ v : ℚ,
      (residualLoop bits (p.xq.map (fun x : Int => fin (x : ℚ))))[k]? = some (fin v) ∧
      (p.xq.getD k 0 ≠ 0 → v = decodedStep (p.xq.getD k 0) bits[rank p.xq k]?) ∧ (p.xq.getD k 0 = 0 → v = 0) := by
    intro k hk
    refine ⟨_, residualLoop_get el p.xq bits hb k (by omega), ?_, ?_⟩
    · intro h0
      rw [List.getD_eq_getElem _ _ (by omega)] at h0 ⊢
      rw [if_neg h0]
      cases bits[rank p.xq k]? <;> rfl
    · intro h0
      rw [List.getD_eq_getElem _ _ (by omega)] at h0
      rw [if_pos h0]
  rw [hne.2.1]
  generalize residualLoop bits (p.xq.map (fun x : Int => fin (x : ℚ))) = R at *
  cases expectedZero p with
  | true =>
    rw [k2, Res.bind_ok]
    refine ⟨_, rfl, by unfold globalGain; rw [List.length_map]; omega, ?_⟩
    intro k hk
    obtain ⟨v, v1, v2, v3⟩ := hval k hk
    refine ⟨v, ?_, v2, ?_⟩
    · unfold globalGain
      rw [List.getD_eq_getElem?_getD, List.getElem?_map, v1]
      rfl
    · intro h0
      rw [v3 h0]
      simp
  | false =>
    rw [k1, Res.bind_ok]
    refine ⟨_, rfl, by unfold globalGain; simp; omega, ?_⟩
    intro k hk
    obtain ⟨v, v1, v2, v3⟩ := hval k hk
    have hout : (globalGain (8 * N) (Lc3Config.new f d).fsInd (expectedSide p q).globalGainIndex
        (R.zipIdx.map fun r => filledLine d (expectedSide p q).bandwidth (expectedSeed p) (expectedSide p q).noiseFactor (expectedX p) r.2 r.1)).getD k (fin 0) =
        F32.mul (filledLine d p.bandwidthInd (expectedSeed p) p.noiseFactor (expectedX p) k (fin v))
          (globalGainFactor (8 * N) (Lc3Config.new f d).fsInd p.ggInd) := by
      unfold globalGain
      rw [List.getD_eq_getElem?_getD, List.getElem?_map, List.getElem?_map, List.getElem?_zipIdx, v1]
      simp only [Option.map_some, Option.getD_some, Nat.zero_add]
      rfl
    rw [hout]
    by_cases he : Spec.Empty d p.bandwidthInd (expectedX p) k
    · have h0 : p.xq.getD k 0 = 0 := by
        obtain ⟨-, hk2, hall⟩ := he
        rw [← hget]
        exact hall k (by omega) (by omega) hk2
      obtain ⟨n, n0, n1, n2⟩ := noiseLevel_f32 el (nf := p.noiseFactor) hs.noise
      rcases C13_level (seed := expectedSeed p) (nf := p.noiseFactor) (fin v) he with h | h
      · refine ⟨n, by rw [h, n0], fun h => absurd h0 h, fun _ => ⟨by rw [abs_of_nonneg n1]; exact n2, fun hn => absurd ((hemp k).1 he) hn⟩⟩
      · refine ⟨-n, by rw [h, n0]; rfl, fun h => absurd h0 h, fun _ => ⟨by rw [abs_neg, abs_of_nonneg n1]; exact n2,
          fun hn => absurd ((hemp k).1 he) hn⟩⟩
    · refine ⟨v, by rw [C13_unchanged _ he], v2, fun h0 => ?_⟩
      rw [v3 h0]
      simp

/-- the lines of the analysis, their quantised values and the refinement bits -/
theorem analysis_lines_f32 (el : Elem) {f : SamplingFrequency} {d : FrameDuration} {ch : EncChannel F32} {x : List Int} {nbytes : Nat}
    {a : EncAnalysis F32} (h : @encAnalyse F32 (scalar el) (Lc3Config.new f d) ch x nbytes = .ok a) :
    a.lines.length = (Lc3Config.new f d).ne ∧ a.p.xq.length = (Lc3Config.new f d).ne ∧ CodedLength a.p.xq a.p.lastnz ∧
      (∀ k, k < a.p.lastnz → a.p.xq.getD k 0 = @quantLine F32 (scalar el) a.gg (a.lines.getD k (fin 0))) ∧
      ∀ k, k < (Lc3Config.new f d).ne → a.p.xq.getD k 0 ≠ 0 → rank a.p.xq k < a.p.residual.length →
        a.p.residual[rank a.p.xq k]? = some (@geS F32 (scalar el) (a.lines.getD k (fin 0)) (F32.mul (rnd (a.p.xq.getD k 0)) a.gg)) := by
  letI := scalar el
  obtain ⟨freq, out, eb, nn, bwInd, nbitsBw, attack, det, sns, tns, ltpf, pf, quant, spec, res, nf, e1, e2, e3, e4, e5, e6, e7,
    e8, e9, e10, rfl⟩ := encAnalyse_inv h
  obtain ⟨c1, c2, -, c4⟩ := C27 f d e8
  obtain ⟨hl, -⟩ := quantRun_inv e8
  have hne : (Lc3Config.new f d).ne ≤ 400 := by cases f <;> cases d <;> decide
  simp only
  refine ⟨hl, c2, c1, ?_, ?_⟩
  · intro k hk
    have := c1.le
    rw [c4 k hk, List.getD_eq_getElem _ _ (by simp; omega), List.getElem_map, List.getD_eq_getElem _ _ (by omega)]
  · intro k hk h0 hr
    obtain ⟨bs, g1, g2, g3⟩ := residualEncLoop_ok spec.gg ((spec.nbitsSpec : Int) - spec.nbitsTrunc + 4).toNat tns.lines spec.xq 0
      (by omega) (by omega)
    unfold residualEncode at e9
    simp only at e9
    split at e9
    · rw [if_neg (by omega), List.take_of_length_le (by omega), List.take_of_length_le (by omega), g1] at e9
      obtain rfl := Res.ok.inj e9
      rw [List.getD_eq_getElem _ _ (by omega)] at h0
      rw [g3 k (by omega) (by omega) h0 (by omega), List.getD_eq_getElem _ _ (by omega), List.getD_eq_getElem _ _ (by omega)]
      rfl
    · obtain rfl := Res.ok.inj e9
      simp at hr

/-- a multiple of the gain, rounded -/
theorem mul_gain {v g : ℚ} (hg : 1 / 10 ^ 10 ≤ g) (hg2 : g ≤ 10 ^ 10) (hv : |v| ≤ 32770) :
    ∃ w : ℚ, F32.mul (fin v) (fin g) = fin w ∧ |w - v * g| ≤ 1 / 500 * g := by
  have h0 : 0 < g := lt_of_lt_of_le (by norm_num) hg
  have hab : |v * g| ≤ 32770 * g := by
    rw [abs_mul, abs_of_pos h0]
    exact mul_le_mul_of_nonneg_right hv h0.le
  refine ⟨rndQ (v * g), ?_, ?_⟩
  · show rnd (v * g) = _
    exact rnd_fin (hab.trans (by norm_num at hg2 ⊢; linarith))
  · have := rndQ_err (v * g)
    norm_num at this hab hg ⊢
    linarith

/-- quantisation, refinement and reconstruction of one line; `b` is the comparison of the encoder -/
theorem refine_error_f32 (el : Elem) {g x : ℚ} (hg : 1 / 10 ^ 10 ≤ g) (hg2 : g ≤ 10 ^ 10) (hx : |x| ≤ (32767 + 1 / 2) * g) {n : ℤ}
    (hn : n = @quantLine F32 (scalar el) (fin g) (fin x)) (h0 : n ≠ 0) :
    (∀ w, F32.mul (fin (refined n (@geS F32 (scalar el) (fin x) (F32.mul (rnd n) (fin g))))) (fin g) = fin w → |w - x| ≤ 33 / 100 * g) ∧
      (∀ b w, F32.mul (fin (refined n b)) (fin g) = fin w → |w - x| ≤ 41 / 50 * g) ∧
      (∀ w, F32.mul (fin n) (fin g) = fin w → |w - x| ≤ 41 / 50 * g) := by
  have h00 : 0 < g := lt_of_lt_of_le (by norm_num) hg
  obtain ⟨q0, q1, q2⟩ := quantLine_f32_sides el h00 hx
  rw [← hn] at q0 q1 q2
  have hn0 : |(n : ℚ)| ≤ 32767 := by exact_mod_cast q0
  obtain ⟨u, hu⟩ : ∃ u, u = x / g := ⟨_, rfl⟩
  have hxu : x = u * g := by rw [hu, div_mul_cancel₀ _ h00.ne']
  rw [← hu] at q1 q2
  have key : ∀ (v e : ℚ), |v| ≤ 32768 → |v - u| ≤ e → ∀ w, F32.mul (fin v) (fin g) = fin w → |w - x| ≤ (e + 1 / 500) * g := by
    intro v e hv he w hw
    obtain ⟨w', e1, e2⟩ := mul_gain hg hg2 (hv.trans (by norm_num))
    rw [hw] at e1
    injection e1 with e1
    subst e1
    have h1 : |v * g - x| ≤ e * g := by
      rw [hxu, ← sub_mul, abs_mul, abs_of_pos h00]
      exact mul_le_mul_of_nonneg_right he h00.le
    calc |w - x| = |(w - v * g) + (v * g - x)| := by ring_nf
      _ ≤ |w - v * g| + |v * g - x| := abs_add_le _ _
      _ ≤ _ := by linarith
  have hrb : ∀ b, |refined n b| ≤ 32768 := by
    intro b
    obtain ⟨a1, a2⟩ := abs_le.1 hn0
    unfold refined
    rw [abs_le]
    cases b <;> split <;> (try split) <;> constructor <;> first | linarith | (exfalso; simp_all)
  -- the comparison
  obtain ⟨c, hc1, hc2⟩ := mul_gain hg hg2 (v := n) (by linarith)
  have hcmp : @geS F32 (scalar el) (fin x) (F32.mul (rnd n) (fin g)) = decide (c ≤ x) := by
    rw [rnd_int (by omega), hc1]
    unfold geS
    show (decide (c < x) || decide (x = c)) = _
    rw [← Bool.decide_or, decide_eq_decide]
    constructor
    · rintro (h | h)
      · exact h.le
      · exact h.ge
    · intro h
      rcases h.eq_or_lt with h | h
      · exact .inr h.symm
      · exact .inl h
  have hcu : (c ≤ x → (n : ℚ) - 1 / 500 ≤ u) ∧ (¬ c ≤ x → u ≤ n + 1 / 500) := by
    obtain ⟨a1, a2⟩ := abs_le.1 hc2
    constructor
    · intro h
      by_contra hh
      have : u * g < (n - 1 / 500) * g := mul_lt_mul_of_pos_right (not_le.1 hh) h00
      linarith
    · intro h
      by_contra hh
      have : (n + 1 / 500) * g < u * g := mul_lt_mul_of_pos_right (not_le.1 hh) h00
      linarith
  have fin_mono : ∀ {A B : ℚ}, A ≤ B → A * g ≤ B * g := fun h => mul_le_mul_of_nonneg_right h h00.le
  have hpn : (0 ≤ x ∧ 0 < n) ∨ (x < 0 ∧ ¬ 0 < n) := by
    rcases le_or_gt 0 x with h | h
    · exact .inl ⟨h, by have := (q1 h).1; omega⟩
    · exact .inr ⟨h, by have := (q2 h).1; omega⟩
  refine ⟨fun w hw => ?_, fun b w hw => ?_, fun w hw => ?_⟩
  · refine (key _ (5 / 16 + 1 / 125) (hrb _) ?_ w hw).trans (fin_mono (by norm_num))
    rw [hcmp]
    by_cases hcx : c ≤ x
    · have h1 := hcu.1 hcx
      rw [decide_eq_true hcx]
      rcases hpn with ⟨hx0, hp⟩ | ⟨hx0, hp⟩
      · obtain ⟨-, a2, a3⟩ := q1 hx0
        simp only [refined, if_true, if_pos hp]
        rw [abs_le]; constructor <;> linarith
      · obtain ⟨-, a2, a3⟩ := q2 hx0
        simp only [refined, if_true, if_neg hp]
        rw [abs_le]; constructor <;> linarith
    · have h1 := hcu.2 hcx
      rw [decide_eq_false hcx]
      rcases hpn with ⟨hx0, hp⟩ | ⟨hx0, hp⟩
      · obtain ⟨-, a2, a3⟩ := q1 hx0
        simp only [refined, Bool.false_eq_true, if_false, if_pos hp]
        rw [abs_le]; constructor <;> linarith
      · obtain ⟨-, a2, a3⟩ := q2 hx0
        simp only [refined, Bool.false_eq_true, if_false, if_neg hp]
        rw [abs_le]; constructor <;> linarith
  · refine (key _ (13 / 16 + 1 / 250) (hrb _) ?_ w hw).trans (fin_mono (by norm_num))
    rcases hpn with ⟨hx0, hp⟩ | ⟨hx0, hp⟩
    · obtain ⟨-, a2, a3⟩ := q1 hx0
      cases b
      · simp only [refined, Bool.false_eq_true, if_false, if_pos hp]
        rw [abs_le]; constructor <;> linarith
      · simp only [refined, if_true, if_pos hp]
        rw [abs_le]; constructor <;> linarith
    · obtain ⟨-, a2, a3⟩ := q2 hx0
      cases b
      · simp only [refined, Bool.false_eq_true, if_false, if_neg hp]
        rw [abs_le]; constructor <;> linarith
      · simp only [refined, if_true, if_neg hp]
        rw [abs_le]; constructor <;> linarith
  · refine (key _ (63 / 100) (by linarith) ?_ w hw).trans (fin_mono (by norm_num))
    rcases hpn with ⟨hx0, hp⟩ | ⟨hx0, hp⟩
    · obtain ⟨-, a2, a3⟩ := q1 hx0
      rw [abs_le]; constructor <;> linarith
    · obtain ⟨-, a2, a3⟩ := q2 hx0
      rw [abs_le]; constructor <;> linarith

theorem stepOf_le (nbits : ℕ) {fsInd gg : ℕ} (hfs : fsInd ≤ 4) (hg : gg < 256) : stepOf nbits fsInd gg ≤ 10 ^ 9 := by
  have ho := gainOffset_bounds nbits hfs
  have h9 : (10 : ℝ) ^ (9 : ℝ) = 10 ^ 9 := by
    rw [show (9 : ℝ) = ((9 : ℕ) : ℝ) by norm_num, Real.rpow_natCast]
  rw [← h9]
  unfold stepOf
  refine Real.rpow_le_rpow_of_exponent_le (by norm_num) ?_
  have h1 : (gainOffset nbits fsInd : ℝ) ≤ -110 := by exact_mod_cast ho.2
  have h2 : (gg : ℝ) ≤ 255 := by exact_mod_cast (by omega : gg ≤ 255)
  rw [div_le_iff₀ (by norm_num)]
  linarith

theorem rank_lt_nonZero {p : FrameParams} (hle : p.lastnz ≤ p.xq.length) {k : ℕ} (hkl : k < p.lastnz) (h0 : p.xq.getD k 0 ≠ 0) :
    rank p.xq k < nonZeroLines p := by
  unfold nonZeroLines rank
  have hsplit : p.xq.take p.lastnz = p.xq.take k ++ p.xq.getD k 0 :: (p.xq.take p.lastnz).drop (k + 1) := by
    have e1 : (p.xq.take p.lastnz).take k = p.xq.take k := by rw [List.take_take]; congr 1; omega
    have e2 : (p.xq.take p.lastnz).drop k = p.xq.getD k 0 :: (p.xq.take p.lastnz).drop (k + 1) := by
      rw [List.drop_eq_getElem_cons (by simp; omega), List.getElem_take, List.getD_eq_getElem _ _ (by omega)]
    rw [← e1, ← e2, List.take_append_drop]
  rw [hsplit, List.filter_append, List.filter_cons_of_pos (by simpa using h0)]
  simp

/-- the frame and what the parser returns -/
theorem CodedFrame32.read {checks : Bool} {el : Elem} {f : SamplingFrequency} {d : FrameDuration} {ch : EncChannel F32} {x : List Int}
    {buf : List Nat} {a : EncAnalysis F32} {s : EncSt} {t : Nat} (h : CodedFrame32 checks el f d ch x buf a s t) {q : PulseIdx}
    (h1 : SideOk (Lc3Config.new f d) a.p q) (h2 : DataOk (Lc3Config.new f d) buf.length a.p) :
    ∃ ch' bytes bits, @encodeChannel F32 (scalar el) (Lc3Config.new f d) ch x buf = .ok (ch', bytes) ∧
      readFrame checks (Lc3Config.new f d) bytes = .ok (expectedSide a.p q,
        ⟨expectedOrders a.p, expectedTnsIdx a.p, bits, expectedSeed a.p, expectedZero a.p, 8 * buf.length⟩, expectedX a.p) ∧
      (∀ i, i < encoderRoom buf.length s t → i < a.p.residual.length → i < nonZeroLines a.p → bits[i]? = a.p.residual[i]?) := by
  obtain ⟨lsbs, hb⟩ := h.body
  obtain ⟨s', bits, e1, -, e3, -, e5⟩ := C04_partial checks h1 h2 (by have := h.len; omega) h.mode hb h.fits h.wrap h.seed
  have he : ∃ ch', @encodeChannel F32 (scalar el) (Lc3Config.new f d) ch x buf = .ok (ch', s'.buf) := by
    unfold encodeChannel
    rw [h.analysed, Res.bind_ok, e1]
    exact ⟨_, rfl⟩
  obtain ⟨ch', he⟩ := he
  exact ⟨ch', s'.buf, bits, he, e3, e5⟩

/-- **C99** The quantisation error in binary32, for every `log10` and `10^x` of the accuracy `GainFunctions`: if no line is NaN or
infinite and no line is larger than 32767.5 steps, the gain is the one of the transmitted index up to a relative error of `2^-19`, all
lines the decoder reconstructs are finite, and for every line that was not cut off (it is below the coded length, or so small that it is
quantised to zero anyway) the reconstructed line differs from the line the quantiser got by at most 0.33 steps if its refinement bit was
transmitted, by at most 0.82 steps if the transmitted value is not zero, and by at most 1.14 steps (0.64 without noise filling) if it is
zero. -/
theorem C99 {checks : Bool} {el : Elem} (hel : GainFunctions el) {f : SamplingFrequency} {d : FrameDuration} {ch : EncChannel F32}
    {x : List Int} {buf : List Nat} {a : EncAnalysis F32} {s : EncSt} {t : Nat} (h : CodedFrame32 checks el f d ch x buf a s t)
    (hr : ∀ y ∈ a.lines, IsFin y ∧ |val y| ≤ (32767 + 1 / 2) * val a.gg) {spec : List F32}
    (hsp : spec.length = (Lc3Config.new f d).ne) :
    ∃ ch' bytes si ad X deq, @encodeChannel F32 (scalar el) (Lc3Config.new f d) ch x buf = .ok (ch', bytes) ∧
      readFrame checks (Lc3Config.new f d) bytes = .ok (si, ad, X) ∧
      @dequantise F32 (scalar el) (Lc3Config.new f d) spec si ad X = .ok deq ∧
      deq.length = (Lc3Config.new f d).ne ∧ a.lines.length = (Lc3Config.new f d).ne ∧ IsFin a.gg ∧
      |val a.gg - stepOf (8 * buf.length) (Lc3Config.new f d).fsInd a.p.ggInd| ≤
        stepOf (8 * buf.length) (Lc3Config.new f d).fsInd a.p.ggInd / 2 ^ 19 ∧
      ∀ k, k < (Lc3Config.new f d).ne → IsFin (deq.getD k (fin 0)) ∧ ∀ step err : ℝ, step = val a.gg →
        err = |val (deq.getD k (fin 0)) - val (a.lines.getD k (fin 0))| →
        (k < a.p.lastnz ∨ |val (a.lines.getD k (fin 0))| < 5 / 8 * step) →
        (a.p.xq.getD k 0 ≠ 0 → err ≤ 41 / 50 * step ∧
          (rank a.p.xq k < min (encoderRoom buf.length s t) a.p.residual.length → err ≤ 33 / 100 * step)) ∧
        (a.p.xq.getD k 0 = 0 → err ≤ 57 / 50 * step ∧ (¬ Spec.Empty d a.p.bandwidthInd a.p.xq k → err ≤ 16 / 25 * step)) := by
  obtain ⟨q, h1, h2, h3⟩ := C96_params el h.inv h.len h.analysed h.gain h.inside
  obtain ⟨ch', bytes, bits, c1, c4, c6⟩ := h.read h1 h2
  obtain ⟨l1, l2, l3, l4, l5⟩ := analysis_lines_f32 el h.analysed
  have hfs : (Lc3Config.new f d).fsInd ≤ 4 := by cases f <;> cases d <;> decide
  have hlen := h.len
  obtain ⟨g, e1, e2, e3⟩ := gain_f32 hel (nbits := 8 * buf.length) (fsInd := (Lc3Config.new f d).fsInd) (gg := a.p.ggInd) (by omega) hfs
    h.gain
  rw [e1] at h3
  have hgl : 1 / 10 ^ 10 ≤ g := by
    have h1 := stepOf_ge (8 * buf.length) hfs a.p.ggInd
    generalize stepOf (8 * buf.length) (Lc3Config.new f d).fsInd a.p.ggInd = S at *
    have := (abs_le.1 e3).1
    have h2 : (1 / 10 ^ 10 : ℝ) ≤ g := by norm_num at *; linarith
    refine (Rat.cast_le (K := ℝ)).1 ?_
    push_cast
    exact h2
  have hgu : g ≤ 10 ^ 10 := by
    have h1 := stepOf_le (8 * buf.length) hfs h.gain
    generalize stepOf (8 * buf.length) (Lc3Config.new f d).fsInd a.p.ggInd = S at *
    have := (abs_le.1 e3).2
    have h2 : (g : ℝ) ≤ 10 ^ 10 := by norm_num at *; linarith
    refine (Rat.cast_le (K := ℝ)).1 ?_
    push_cast
    exact h2
  have hv : val a.gg = (g : ℝ) := by rw [h3]; rfl
  have hgr : (0 : ℝ) < g := by exact_mod_cast e2
  -- the lines
  have hline : ∀ k, k < (Lc3Config.new f d).ne → ∃ y : ℚ, a.lines.getD k (fin 0) = fin y ∧ |y| ≤ (32767 + 1 / 2) * g := by
    intro k hk
    have hmem : a.lines.getD k (fin 0) ∈ a.lines := by
      rw [List.getD_eq_getElem _ _ (by omega)]
      exact List.getElem_mem _
    obtain ⟨⟨y, hy⟩, hb⟩ := hr _ hmem
    refine ⟨y, hy, ?_⟩
    rw [hy, hv] at hb
    have hb' : |(y : ℝ)| ≤ (32767 + 1 / 2) * g := hb
    refine (Rat.cast_le (K := ℝ)).1 ?_
    push_cast
    exact hb'
  have hquant : ∀ k, k < a.p.lastnz → ∀ y : ℚ, a.lines.getD k (fin 0) = fin y →
      a.p.xq.getD k 0 = @quantLine F32 (scalar el) (fin g) (fin y) := by
    intro k hk y hy
    rw [l4 k hk, h3, hy]
  have hb : ∀ v ∈ a.p.xq, |v| ≤ 32768 := by
    intro v hv
    obtain ⟨k, hk, rfl⟩ := List.getElem_of_mem hv
    rw [← List.getD_eq_getElem (d := 0) a.p.xq hk]
    by_cases hkl : k < a.p.lastnz
    · obtain ⟨y, y1, y2⟩ := hline k (by omega)
      rw [hquant k hkl y y1]
      have := (quantLine_f32_sides el e2 y2).1
      omega
    · rw [l3.zeros k (by omega)]
      norm_num
  obtain ⟨deq, d1, d2, d3⟩ := dequantise_f32 el (bits := bits) (N := buf.length) h1 l3 l2 hb h.mode hsp
  refine ⟨ch', bytes, _, _, _, deq, c1, c4, d1, d2, l1, ⟨g, h3⟩, by rw [hv]; exact e3, ?_⟩
  intro k hk
  obtain ⟨v, v1, v2, v3⟩ := d3 k hk
  obtain ⟨y, y1, y2⟩ := hline k hk
  rw [e1] at v1
  have hkx : a.p.xq.getD k 0 ∈ a.p.xq := by
    rw [List.getD_eq_getElem _ _ (by omega)]
    exact List.getElem_mem _
  have hnx := hb _ hkx
  have hvb : |v| ≤ 32770 := by
    by_cases h0 : a.p.xq.getD k 0 = 0
    · exact (v3 h0).1.trans (by norm_num)
    · rw [v2 h0]
      have hq : |((a.p.xq.getD k 0 : ℤ) : ℚ)| ≤ 32768 := by exact_mod_cast hnx
      generalize a.p.xq.getD k 0 = n at *
      obtain ⟨a1, a2⟩ := abs_le.1 hq
      cases bits[rank a.p.xq k]? with
      | none => exact hq.trans (by norm_num)
      | some b =>
        unfold decodedStep refined
        simp only
        rw [abs_le]
        cases b <;> split <;> (try split) <;> constructor <;> linarith
  obtain ⟨w, w1, w2⟩ := mul_gain hgl hgu hvb
  rw [v1, w1, y1]
  refine ⟨⟨w, rfl⟩, ?_⟩
  intro step err hstep herr hkeep
  have toR : ∀ {c : ℚ}, |w - y| ≤ c * g → err ≤ c * step := by
    intro c hc
    have : ((|w - y| : ℚ) : ℝ) ≤ ((c * g : ℚ) : ℝ) := Rat.cast_le.2 hc
    push_cast at this
    rw [herr, hstep, hv]
    exact this
  have toR' : ∀ {c : ℚ} {r : ℝ}, (c : ℝ) = r → |w - y| ≤ c * g → err ≤ r * step := by
    intro c r hcr hc
    rw [← hcr]
    exact toR hc
  constructor
  · intro h0
    have hkl : k < a.p.lastnz := by
      by_contra hh
      exact h0 (l3.zeros k (by omega))
    have hq := hquant k hkl y y1
    obtain ⟨r1, r2, r3⟩ := refine_error_f32 el hgl hgu y2 hq h0
    have hv := v2 h0
    constructor
    · refine toR' (c := 41 / 50) (by norm_num) ?_
      rw [hv] at w1
      cases hbit : bits[rank a.p.xq k]? with
      | none => rw [hbit] at w1; exact r3 w w1
      | some b => rw [hbit] at w1; exact r2 b w w1
    · intro hrk
      refine toR' (c := 33 / 100) (by norm_num) ?_
      have hb1 := c6 (rank a.p.xq k) (by omega) (by omega) (rank_lt_nonZero l3.le hkl h0)
      have hb2 := l5 k hk h0 (by omega)
      rw [hv, hb1, hb2, h3, y1] at w1
      exact r1 w w1
  · intro h0
    have hy : |y| ≤ 629 / 1000 * g := by
      by_cases hkl : k < a.p.lastnz
      · obtain ⟨q0, q1, q2⟩ := quantLine_f32_sides el e2 y2
        rw [← hquant k hkl y y1, h0] at q1 q2
        have hyu : y = y / g * g := (div_mul_cancel₀ _ e2.ne').symm
        have : |y / g| ≤ 629 / 1000 := by
          rw [abs_le]
          rcases le_or_gt 0 y with hy0 | hy0
          · obtain ⟨-, b1, b2⟩ := q1 hy0
            push_cast at b1 b2
            constructor <;> linarith
          · obtain ⟨-, b1, b2⟩ := q2 hy0
            push_cast at b1 b2
            constructor <;> linarith
        rw [hyu, abs_mul, abs_of_pos e2]
        exact mul_le_mul_of_nonneg_right this e2.le
      · have hsm := hkeep.resolve_left hkl
        rw [hstep, hv] at hsm
        have hsm' : |(y : ℝ)| < 5 / 8 * g := hsm
        have : |y| < 5 / 8 * g := by
          refine (Rat.cast_lt (K := ℝ)).1 ?_
          push_cast
          exact hsm'
        linarith
    obtain ⟨b1, b2⟩ := v3 h0
    have htri : ∀ {e : ℚ}, |v| ≤ e → |w - y| ≤ (e + 1 / 500 + 629 / 1000) * g := by
      intro e he
      have : |v * g| ≤ e * g := by
        rw [abs_mul, abs_of_pos e2]
        exact mul_le_mul_of_nonneg_right he e2.le
      calc |w - y| = |(w - v * g) + (v * g) - y| := by ring_nf
        _ ≤ |(w - v * g) + v * g| + |y| := abs_sub _ _
        _ ≤ |w - v * g| + |v * g| + |y| := by gcongr; exact abs_add_le _ _
        _ ≤ _ := by linarith
    constructor
    · exact toR' (c := 57 / 50) (by norm_num) ((htri b1).trans (mul_le_mul_of_nonneg_right (by norm_num) e2.le))
    · intro he
      exact toR' (c := 16 / 25) (by norm_num) ((htri (e := 0) (by rw [b2 he, abs_zero])).trans
        (mul_le_mul_of_nonneg_right (by norm_num) e2.le))

end F32
end Lc3
