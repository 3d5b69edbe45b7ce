import Verif.Props.TnsFilter
import Verif.Spec.TnsRanges
/-!
# C123: the temporal noise shaping parameters that are sent

The statements of C120 put together for a whole run: for every filter of a frame, the order and the indices that are sent are those of
the specified predictor for the specified range, weighted below the specified frame size. Then the lines of the range of the second
filter when the first one is off.
-/

namespace Lc3
open Scalar Spec

theorem tnsParams_parts {d : FrameDuration} {bw : Nat} {p : TnsParams} (h : tnsParams d bw = .ok p) :
    3 * p.numFilters + 1 = (tnsEdges d bw).length ∧ p.subs = (List.range p.numFilters).map (tnsParts d bw) ∧ p.numFilters ≤ 2 ∧
      (∀ s ∈ p.subs, s.length = 3 ∧ ∀ q ∈ s, q.1 ≤ q.2) := by
  match d, bw, h with
  | .tenMs, 0, h | .tenMs, 1, h | .tenMs, 2, h | .tenMs, 3, h | .tenMs, 4, h | .sevenPointFiveMs, 0, h | .sevenPointFiveMs, 1, h
  | .sevenPointFiveMs, 2, h | .sevenPointFiveMs, 3, h | .sevenPointFiveMs, 4, h =>
    injection h with h
    subst h
    decide
  | .tenMs, n + 5, h | .sevenPointFiveMs, n + 5, h => cases h

theorem tnsParams_second {d : FrameDuration} {bw : Nat} {p : TnsParams} (h : tnsParams d bw = .ok p) (h2 : p.numFilters = 2) :
    ∃ b0 : ℕ × ℕ, p.bands = [b0, ((tnsEdges d bw).getD 3 0, (tnsEdges d bw).getD 6 0)] ∧ b0.2 ≤ (tnsEdges d bw).getD 3 0 ∧
      (tnsEdges d bw).getD 3 0 ≤ (tnsEdges d bw).getD 6 0 := by
  match d, bw, h with
  | .tenMs, 0, h | .tenMs, 1, h | .tenMs, 2, h | .sevenPointFiveMs, 0, h | .sevenPointFiveMs, 1, h
  | .sevenPointFiveMs, 2, h =>
    injection h with h
    rw [← h] at h2
    exact absurd h2 (by decide)
  | .tenMs, 3, h | .tenMs, 4, h | .sevenPointFiveMs, 3, h | .sevenPointFiveMs, 4, h =>
    injection h with h
    subst h
    exact ⟨_, rfl, by decide, by decide⟩
  | .tenMs, n + 5, h | .sevenPointFiveMs, n + 5, h => cases h

theorem lpcWeightingOf_limit (d : FrameDuration) (nbits : Nat) : decide (0 < lpcWeightingOf d nbits) = decide (nbits < tnsWeightLimit d) := by
  cases d <;> unfold lpcWeightingOf tnsWeightLimit <;> simp only <;> split <;> simp <;> omega

/-- a block of a flattened list of lists of length eight -/
theorem flatten_block : ∀ (l : List (List Nat)) (tail : List Nat), (∀ s ∈ l, s.length = 8) → ∀ (i : Nat) (hi : i < l.length) (k : Nat), k < 8 →
    (l.flatten ++ tail).getD (8 * i + k) 0 = l[i].getD k 0
  | s :: l, tail, hl, 0, hi, k, hk => by
    have := hl s (by simp)
    rw [List.flatten_cons, List.append_assoc, List.getD_append _ _ _ _ (by omega)]
    simp
  | s :: l, tail, hl, i + 1, hi, k, hk => by
    have h8 := hl s (by simp)
    rw [List.flatten_cons, List.append_assoc, List.getD_append_right _ _ _ _ (by omega), h8, show 8 * (i + 1) + k - 8 = 8 * i + k by omega]
    exact flatten_block l tail (fun s hs => hl s (by simp [hs])) i (by simpa using hi) k hk

/-- **C123** For every spectrum that is not too smooth in the ranges of its bandwidth (C75), the number of filters is that of the bandwidth,
and for every filter the eight indices sent are those of the best predictor for the windowed autocorrelation of its range, weighted if the frame
has fewer than 480 bits (360 for 7.5 ms), each with the nearest angle; the filter is off if the prediction gain is at most 1.5 or the
spectrum is near the Nyquist frequency. The order sent is that of the last index that is not 8. -/
theorem C123 {f : SamplingFrequency} {d : FrameDuration} {bw nbits : Nat} {nn : Bool} {x : List ℝ} {res : TnsResult ℝ}
    (hs : ∀ i, 3 * i + 3 < (tnsEdges d bw).length → (∀ q ∈ tnsParts d bw i, partEnergy x q ≠ 0) → NotSmooth x (tnsParts d bw i))
    (h : tnsEncRun (Lc3Config.new f d) x bw nbits nn = .ok res) :
    3 * res.numFilters + 1 = (tnsEdges d bw).length ∧ (∀ i, res.numFilters ≤ i → res.rcOrder.getD i 0 = 0) ∧
    ∀ i < res.numFilters, ∃ (o : ℕ) (q : ℕ → ℕ), res.rcOrder.getD i 0 = o ∧ (∀ k < 8, res.rcI.getD (8 * i + k) 0 = q k) ∧
      o ≤ 8 ∧ (∀ k, o ≤ k → k < 8 → q k = 8) ∧ (0 < o → q (o - 1) ≠ 8) ∧
      ∃ (r a : ℕ → ℝ) (e : ℝ), (∀ k < 9, r k = rangeAuto x (tnsParts d bw i) k * ((LAG_WINDOW.getD k 0 : ℚ) : ℝ)) ∧ a 0 = 1 ∧
        NormalEquations r a e ∧ 0 < e ∧ (nn = true ∨ r 0 / e ≤ 3 / 2 → o = 0) ∧
        (nn = false → 3 / 2 < r 0 / e → ∃ c : ℕ → ℝ,
          (∀ n ≤ 8, ladder c 8 n = a n * weightOf (decide (nbits < tnsWeightLimit d)) (r 0 / e) ^ n) ∧
          ∀ k < 8, q k ≤ 16 ∧ |Real.arcsin (c k) - ((q k : ℝ) - 8) * (Real.pi / 17)| ≤ Real.pi / 34) := by
  have hms : (Lc3Config.new f d).nMs = d := by cases f <;> cases d <;> rfl
  unfold tnsEncRun at h
  split at h
  · simp at h
  rw [Res.bind_eq_ok] at h
  obtain ⟨p, h1, h⟩ := h
  simp only at h
  rw [Res.bind_eq_ok] at h
  obtain ⟨ints, h2, h⟩ := h
  rw [Res.bind_eq_ok] at h
  obtain ⟨bits, _, h⟩ := h
  rw [Res.bind_eq_ok] at h
  obtain ⟨lines, _, h⟩ := h
  injection h with h
  subst h
  rw [hms] at h1 h2
  obtain ⟨g1, g2, g3, g4⟩ := tnsParams_parts h1
  have hf := mapM_forall₂ h2
  have hil : ints.length = p.numFilters := by rw [← hf.length_eq, g2]; simp
  have hget := List.forall₂_iff_get.1 hf
  have h8 : ∀ s ∈ ints, s.length = 8 := by
    intro s hs
    obtain ⟨j, hj, rfl⟩ := List.getElem_of_mem hs
    exact (tnsFilterInts_facts (hget.2 j (by rw [hf.length_eq]; exact hj) hj)).1
  refine ⟨g1, fun i hi => ?_, fun i hi => ?_⟩
  · simp only at hi ⊢
    rw [List.getD_append_right _ _ _ _ (by simpa [hil] using hi), List.getD_eq_getElem?_getD, List.getElem?_replicate]
    split <;> rfl
  simp only at hi
  have hi2 : i < ints.length := by omega
  have hi1 : i < p.subs.length := by rw [hf.length_eq]; exact hi2
  have hrun := hget.2 i hi1 hi2
  simp only [List.get_eq_getElem] at hrun
  have hsub : p.subs[i] = tnsParts d bw i := by simp [g2]
  obtain ⟨g5, g6⟩ := g4 p.subs[i] (List.getElem_mem _)
  rw [hsub] at hrun g5 g6
  obtain ⟨q8, qx⟩ := tnsFilterInts_facts hrun
  obtain ⟨r, a, e, r1, r2, r3, r4, r5, r6⟩ := C120_analysis (fun q hq => ⟨g6 q hq, qx q hq⟩) g5 (hs i (by omega)) hrun
  obtain ⟨o1, o2⟩ := C120_order ints[i]
  have hd : ∀ k < 8, ints[i].getD k 8 = ints[i].getD k 0 := by
    intro k hk
    rw [List.getD_eq_getElem _ _ (by omega), List.getD_eq_getElem _ _ (by omega)]
  have hol := tnsOrder_le ints[i]
  refine ⟨tnsOrder ints[i], fun k => ints[i].getD k 0, ?_, fun k hk => ?_, by omega, fun k hk hk8 => ?_, fun ho => ?_, r, a, e, r1, r2, r3, r4, ?_, ?_⟩
  · simp only
    rw [List.getD_append _ _ _ _ (by simpa using hi2), List.getD_eq_getElem _ _ (by simpa using hi2), List.getElem_map]
  · exact flatten_block ints _ h8 i hi2 k hk
  · show ints[i].getD k 0 = 8
    rw [← hd k hk8]
    exact o1 k hk
  · show ints[i].getD (tnsOrder ints[i] - 1) 0 ≠ 8
    rw [← hd _ (by omega)]
    exact o2 ho
  · intro hc
    rw [r5 hc]
    decide
  · intro hn hg
    obtain ⟨-, c, c1, c2⟩ := r6 hn hg
    rw [lpcWeightingOf_limit] at c1
    exact ⟨c, c1, c2⟩

/-- **C123** (second filter) If the first of two filters is off, all lines below the range of the second filter are left alone and those of
its range are filtered with its own coefficients alone, starting at the beginning of its range. -/
theorem C123_second {f : SamplingFrequency} {d : FrameDuration} {bw nbits : Nat} {nn : Bool} {x : List ℝ} {res : TnsResult ℝ}
    (h : tnsEncRun (Lc3Config.new f d) x bw nbits nn = .ok res) (h2 : res.numFilters = 2) (h0 : res.rcOrder.getD 0 0 = 0) {lo hi : Nat}
    (hlo : lo = (tnsEdges d bw).getD 3 0) (hhi : hi = (tnsEdges d bw).getD 6 0) :
    (∀ n < lo, res.lines.getD n 0 = x.getD n 0) ∧
    ∀ n, lo ≤ n → n < hi → res.lines.getD n 0 =
      convolve (ladder (fun j => Real.sin (((res.rcI.getD (8 + j) 0 : ℝ) - 8) * (Real.pi / 17))) (res.rcOrder.getD 1 0)) (res.rcOrder.getD 1 0)
        (x.drop lo) (n - lo) := by
  have hms : (Lc3Config.new f d).nMs = d := by cases f <;> cases d <;> rfl
  unfold tnsEncRun at h
  split at h
  · simp at h
  rw [Res.bind_eq_ok] at h
  obtain ⟨p, h1, h⟩ := h
  simp only at h
  rw [Res.bind_eq_ok] at h
  obtain ⟨intss, hi2, h⟩ := h
  rw [Res.bind_eq_ok] at h
  obtain ⟨bits, _, h⟩ := h
  rw [Res.bind_eq_ok] at h
  obtain ⟨lines, h4, h⟩ := h
  injection h with h
  subst h
  simp only at h2 h0 ⊢
  rw [hms] at h1 hi2
  obtain ⟨g1, g2, g3, g4⟩ := tnsParams_parts h1
  obtain ⟨⟨b0, b1⟩, hband, hord, hle⟩ := tnsParams_second h1 h2
  rw [← hlo, ← hhi] at hband
  rw [← hlo] at hord
  rw [← hlo, ← hhi] at hle
  have hf := mapM_forall₂ hi2
  have hil : intss.length = 2 := by rw [← hf.length_eq, g2, h2]; simp
  obtain ⟨i0, i1, rfl⟩ := List.length_eq_two.1 hil
  have hget := (List.forall₂_iff_get.1 hf).2
  have l0 : i0.length = 8 := (tnsFilterInts_facts (hget 0 (by rw [hf.length_eq]; simp) (by simp))).1
  have l1 : i1.length = 8 := (tnsFilterInts_facts (hget 1 (by rw [hf.length_eq]; simp) (by simp))).1
  have o0 : tnsOrder i0 = 0 := by simpa using h0
  have eo : (List.map tnsOrder [i0, i1] ++ List.replicate (2 - p.numFilters) 0).getD 1 0 = tnsOrder i1 := by simp
  have ei : ∀ j < 8, ([i0, i1].flatten ++ List.replicate (16 - 8 * p.numFilters) 8).getD (8 + j) 0 = i1.getD j 0 := by
    intro j hj
    exact flatten_block [i0, i1] _ (by simp [l0, l1]) 1 (by simp) j hj
  rw [eo]
  have hol := tnsOrder_le i1
  obtain ⟨rc, hrc⟩ : ∃ rc : List ℝ, rc = (i1.take (tnsOrder i1)).map tnsQuant := ⟨_, rfl⟩
  have hrl : rc.length = tnsOrder i1 := by rw [hrc, List.length_map, List.length_take]; omega
  have hlad : ∀ m, ladder (at0 rc) (tnsOrder i1) m =
      ladder (fun j => Real.sin ((((([i0, i1].flatten ++ List.replicate (16 - 8 * p.numFilters) 8).getD (8 + j) 0 : ℕ) : ℝ) - 8) * (Real.pi / 17)))
        (tnsOrder i1) m := by
    refine ladder_congr _ fun j hj => ?_
    unfold at0
    have hj2 : j < i1.length := by omega
    rw [ei j (by omega), List.getD_eq_getElem _ _ (by omega), List.getD_eq_getElem _ _ hj2]
    simp only [hrc, List.getElem_map, List.getElem_take]
    show Real.sin (Real.pi / 17 * (((((i1[j] : ℕ) : ℤ) : ℚ) : ℝ) - ((8 : ℚ) : ℝ))) = _
    congr 1
    push_cast
    ring
  simp only [List.map_cons, List.map_nil, o0, List.take_zero, ← hrc] at h4
  rw [hband] at h4
  unfold tnsFilterLoop at h4
  rw [if_neg (by simp)] at h4
  unfold tnsFilterLoop at h4
  have hconv : ∀ n, convolve (ladder (fun j => Real.sin ((((([i0, i1].flatten ++ List.replicate (16 - 8 * p.numFilters) 8).getD (8 + j) 0 : ℕ) : ℝ) - 8) *
      (Real.pi / 17))) (tnsOrder i1)) (tnsOrder i1) (x.drop lo) n = convolve (ladder (at0 rc) (tnsOrder i1)) (tnsOrder i1) (x.drop lo) n := by
    intro n
    unfold convolve
    exact Finset.sum_congr rfl fun i _ => by rw [hlad]
  by_cases hz : rc.length ≠ 0
  · rw [if_pos hz, Res.bind_eq_ok] at h4
    obtain ⟨l, hl, h4⟩ := h4
    have hlen : hi ≤ x.length := by
      unfold sliceR at hl; split at hl
      · rename_i hc; exact hc.2
      · simp at hl
    rw [sliceR_ok hle hlen] at hl
    injection hl with hl
    simp only at h4
    unfold tnsFilterLoop at h4
    injection h4 with h4
    have hll : l.length = hi - lo := by rw [← hl, List.length_drop, List.length_take]; omega
    have hlo' : (x.take lo).length = lo := by rw [List.length_take]; omega
    have hfir := C120_filter (rc := rc) (by intro hc; rw [hc] at hz; exact hz rfl) (by omega) l
    rw [← h4]
    refine ⟨fun n hn => ?_, fun n hn1 hn2 => ?_⟩
    · rw [List.append_assoc, List.getD_eq_getElem?_getD, List.getElem?_append_left (by omega), List.getElem?_take_of_lt hn,
        List.getD_eq_getElem?_getD]
    · rw [hconv, List.append_assoc, List.getD_eq_getElem?_getD, List.getElem?_append_right (by omega), hlo',
        List.getElem?_append_left (by rw [encLatticeBand_length]; omega), hfir, List.getElem?_map, List.getElem?_range (by omega), ← hrl]
      show convolve _ _ l _ = _
      unfold convolve
      refine Finset.sum_congr rfl fun i _ => ?_
      congr 1
      split
      · rw [← hl, List.getD_eq_getElem?_getD, List.getD_eq_getElem?_getD, List.getElem?_drop, List.getElem?_drop,
          List.getElem?_take_of_lt (by omega)]
      · rfl
  · rw [if_neg hz] at h4
    unfold tnsFilterLoop at h4
    injection h4 with h4
    have ho : tnsOrder i1 = 0 := by omega
    rw [← h4]
    refine ⟨fun n _ => rfl, fun n hn1 hn2 => ?_⟩
    rw [hconv, ho]
    unfold convolve
    rw [Finset.sum_range_one, ladder_zero, if_pos (by omega), Nat.sub_zero, one_mul, List.getD_eq_getElem?_getD, List.getD_eq_getElem?_getD,
      List.getElem?_drop, show lo + (n - lo) = n by omega]

/-- 8 kHz, 10 ms: three single lines, one in each part (as in the example of C75) -/
theorem tnsRun_spikes : ∃ x : List ℝ, x.length = (Lc3Config.new .hz8000 .tenMs).ne ∧ ∀ p, tnsParams (Lc3Config.new .hz8000 .tenMs).nMs 0 = .ok p →
    ∀ s ∈ p.subs, (∀ q ∈ s, partEnergy x q ≠ 0) ∧ NotSmooth x s := by
  refine ⟨(List.range 80).map fun i => if i = 20 ∨ i = 40 ∨ i = 70 then 1 else 0, rfl, fun p hp s hs => ?_⟩
  have hx : ∀ i < 80, ((List.range 80).map fun i => if i = 20 ∨ i = 40 ∨ i = 70 then (1 : ℝ) else 0).getD i 0 =
      if i = 20 ∨ i = 40 ∨ i = 70 then 1 else 0 := by
    intro i hi
    rw [List.getD_eq_getElem?_getD, List.getElem?_map, List.getElem?_range hi]
    rfl
  generalize ((List.range 80).map fun i => if i = 20 ∨ i = 40 ∨ i = 70 then (1 : ℝ) else 0) = x at *
  have hp' : p = ⟨1, [(12, 80)], [[(12, 34), (34, 57), (57, 80)]]⟩ := by
    have : tnsParams (Lc3Config.new .hz8000 .tenMs).nMs 0 = .ok ⟨1, [(12, 80)], [[(12, 34), (34, 57), (57, 80)]]⟩ := rfl
    rw [this] at hp
    simp only [Res.ok.injEq] at hp
    exact hp.symm
  subst hp'
  simp only [List.mem_singleton] at hs
  subst hs
  have c1 := partCorr_single (x := x) (p := (12, 34)) (n := 20) (by norm_num) (by norm_num) (fun i h1 h2 => by
    simp only at h1 h2
    rw [hx i (by omega)]
    by_cases hi : i = 20
    · rw [if_pos (by omega), if_pos hi]
    · rw [if_neg (by omega), if_neg hi])
  have c2 := partCorr_single (x := x) (p := (34, 57)) (n := 40) (by norm_num) (by norm_num) (fun i h1 h2 => by
    simp only at h1 h2
    rw [hx i (by omega)]
    by_cases hi : i = 40
    · rw [if_pos (by omega), if_pos hi]
    · rw [if_neg (by omega), if_neg hi])
  have c3 := partCorr_single (x := x) (p := (57, 80)) (n := 70) (by norm_num) (by norm_num) (fun i h1 h2 => by
    simp only at h1 h2
    rw [hx i (by omega)]
    by_cases hi : i = 70
    · rw [if_pos (by omega), if_pos hi]
    · rw [if_neg (by omega), if_neg hi])
  have en : ∀ q, partEnergy x q = partCorr x q 0 := by
    intro q
    rw [← partFn_sq]
    unfold partCorr
    exact Finset.sum_congr rfl fun s _ => by rw [add_zero, _root_.sq]
  have fe : ∀ b : ℕ → ℝ, filteredEnergy (fun k => if k = 0 then 1 else 0) b = ∑ i ∈ Finset.range 9, b i ^ 2 := by
    intro b
    unfold filteredEnergy
    refine Finset.sum_congr rfl fun m hm => ?_
    rw [Finset.sum_eq_single m]
    · show b m * b m * (if lag m m = 0 then 1 else 0) = _
      rw [if_pos (by unfold lag; omega)]
      ring
    · intro n _ hne
      show b m * b n * (if lag m n = 0 then 1 else 0) = 0
      rw [if_neg (by unfold lag; omega), mul_zero]
    · intro hn; exact absurd hm hn
  refine ⟨fun q hq => ?_, fun b => ?_⟩
  · rw [en]
    simp only [List.mem_cons, List.not_mem_nil, or_false] at hq
    rcases hq with rfl | rfl | rfl
    · rw [c1]; norm_num
    · rw [c2]; norm_num
    · rw [c3]; norm_num
  · simp only [List.map_cons, List.map_nil, List.sum_cons, List.sum_nil, partFiltered_eq, en, funext c1, funext c2, funext c3, fe]
    have : 0 ≤ ∑ i ∈ Finset.range 9, b i ^ 2 := Finset.sum_nonneg fun i _ => sq_nonneg _
    norm_num
    linarith

/-- the hypotheses of C123 are met by these lines, and the range has energy in every part -/
example : ∃ (x : List ℝ) (res : TnsResult ℝ), (∀ q ∈ tnsParts .tenMs 0 0, partEnergy x q ≠ 0) ∧
    (∀ i, 3 * i + 3 < (tnsEdges .tenMs 0).length → (∀ q ∈ tnsParts .tenMs 0 i, partEnergy x q ≠ 0) → NotSmooth x (tnsParts .tenMs 0 i)) ∧
    tnsEncRun (Lc3Config.new .hz8000 .tenMs) x 0 320 false = .ok res := by
  obtain ⟨x, hx, hs⟩ := tnsRun_spikes
  obtain ⟨-, res, hr, -⟩ := C75 (f := .hz8000) (d := .tenMs) (bw := 0) (nbits := 320) (nn := false) (by decide) hx
    (fun p hp s hsm _ => (hs p hp s hsm).2)
  have hsub := hs ⟨1, [(12, 80)], [[(12, 34), (34, 57), (57, 80)]]⟩ rfl [(12, 34), (34, 57), (57, 80)] (by simp)
  have hp : tnsParts .tenMs 0 0 = [(12, 34), (34, 57), (57, 80)] := by decide
  refine ⟨x, res, by rw [hp]; exact hsub.1, fun i hi _ => ?_, hr⟩
  have : i = 0 := by
    have : (tnsEdges .tenMs 0).length = 4 := rfl
    omega
  subst this
  rw [hp]
  exact hsub.2

/-- a fullband frame with two filters that are off -/
example : ∃ res, tnsEncRun (Lc3Config.new .hz48000 .tenMs) (List.replicate 400 (0 : ℝ)) 4 800 false = .ok res ∧ res.numFilters = 2 ∧
    res.rcOrder.getD 0 0 = 0 := by
  have hz : AllZero (List.replicate 400 (0 : ℝ)) := fun v hv => (List.mem_replicate.1 hv).2
  obtain ⟨-, res, hr, -⟩ := C75 (f := .hz48000) (d := .tenMs) (bw := 4) (nbits := 800) (nn := false) (by decide)
    (x := List.replicate 400 0) (by rw [List.length_replicate]; rfl)
    (fun p hp s hs h => by
      exfalso
      obtain ⟨-, -, -, h3⟩ := tnsParams_parts hp
      obtain ⟨h3, -⟩ := h3 s hs
      obtain ⟨q, s', rfl⟩ : ∃ q s', s = q :: s' := by
        cases s with
        | nil => simp at h3
        | cons q s' => exact ⟨q, s', rfl⟩
      refine h q (by simp) ?_
      unfold partEnergy
      refine Finset.sum_eq_zero fun t _ => ?_
      rw [List.getD_eq_getElem?_getD, List.getElem?_replicate]
      split <;> norm_num)
  obtain ⟨-, ho, -⟩ := tnsEncRun_zero hz hr
  refine ⟨res, hr, ?_, by rw [ho]; rfl⟩
  unfold tnsEncRun at hr
  rw [if_neg (by rw [List.length_replicate]; decide)] at hr
  rw [Res.bind_eq_ok] at hr
  obtain ⟨p, h1, hr⟩ := hr
  simp only [Res.bind_eq_ok] at hr
  obtain ⟨_, _, _, _, _, _, hr⟩ := hr
  injection hr with hr
  have hp : (⟨2, [(12, 200), (200, 400)], [[(12, 74), (74, 137), (137, 200)], [(200, 266), (266, 333), (333, 400)]]⟩ : TnsParams) = p := by
    have : tnsParams (Lc3Config.new .hz48000 .tenMs).nMs 4 =
      .ok ⟨2, [(12, 200), (200, 400)], [[(12, 74), (74, 137), (137, 200)], [(200, 266), (266, 333), (333, 400)]]⟩ := rfl
    rw [this] at h1
    injection h1
  rw [← hr]
  show p.numFilters = 2
  rw [← hp]

end Lc3
