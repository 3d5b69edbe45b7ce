import Verif.Lemmas.SilenceFront
import Verif.Props.BitCost
/-! # Digital silence: the quantiser and the writer -/

namespace Lc3
open Scalar Tables Spec

theorem maxAbs_zero {l : List ℝ} (h : AllZero l) : maxAbs l = 0 := by
  have hz : (zero : ℝ) = 0 := Rat.cast_zero
  unfold maxAbs
  rw [hz]
  induction l with
  | nil => rfl
  | cons a l ih =>
    rw [List.foldl_cons, h a (by simp)]
    have : maxS (0 : ℝ) (absS (0 : ℝ)) = 0 := by
      show max (0 : ℝ) |0| = 0
      simp
    rw [this]
    exact ih fun v hv => h v (by simp [hv])

theorem quantLine_zero (gg : ℝ) : quantLine gg (0 : ℝ) = 0 := by
  have hz : (zero : ℝ) = 0 := Rat.cast_zero
  unfold quantLine geS
  rw [hz, show eq (0 : ℝ) 0 = true from decide_eq_true rfl, Bool.or_true, if_pos rfl, zero_div, zero_add]
  show max (-32768) (min 32767 (realToI32 ((3 / 8 : ℚ) : ℝ))) = 0
  have : ⌊((3 / 8 : ℚ) : ℝ)⌋ = 0 := by rw [Int.floor_eq_iff]; norm_num
  unfold realToI32
  rw [if_pos (by norm_num), this]
  rfl

theorem lastNz_zero : ∀ (n : Nat) (l : List Int), AllZero l → l.length = 2 * (n + 1) → lastNz (2 * (n + 1)) l = 2
  | 0, x1 :: x0 :: l, _, _ => by simp [lastNz]
  | n + 1, x1 :: x0 :: l, h, hl => by
    rw [show 2 * (n + 1 + 1) = 2 * (n + 1) + 2 by omega, lastNz, if_pos ⟨by omega, h _ (by simp), h _ (by simp)⟩]
    exact lastNz_zero n l (fun v hv => h v (by simp [hv])) (by simp at hl; omega)
  | 0, [], _, h => by simp at h
  | 0, [_], _, h => by simp at h
  | n + 1, [], _, h => by simp at h
  | n + 1, [_], _, h => by simp at h; omega

set_option maxRecDepth 100000 in
theorem zero_pair_bits : ∀ rf, rf = 0 ∨ rf = 512 → ∃ pki row bits, idx AC_SPEC_LOOKUP rf = .ok pki ∧ idx AC_SPEC_BITS pki = .ok row ∧
    idx row 0 = .ok bits ∧ bits ≤ 20480 := by
  intro rf h
  rcases h with rfl | rfl
  · refine ⟨_, _, _, rfl, rfl, rfl, ?_⟩
    decide +kernel
  · refine ⟨_, _, _, rfl, rfl, rfl, ?_⟩
    decide +kernel

theorem bitConsumption_zero {ne fsInd nbits nbitsSpec : Nat} {xq : List Int} (h0 : AllZero xq) (hl : xq.length = ne) (hne : ne % 2 = 0)
    (h2 : 2 ≤ ne) : ∃ bc, bitConsumption ℝ ne fsInd nbits nbitsSpec xq = .ok bc ∧ bc.rateFlag = encRateFlag nbits fsInd ∧ bc.lastnz = 2 ∧
      bc.nbitsLsb = 0 ∧ bc.lastnzTrunc = 2 ∧ bc.nbitsEst ≤ 10 ∧ bc.nbitsTrunc = 0 := by
  have hln : lastNz ne (xq.take ne).reverse = 2 := by
    obtain ⟨m, rfl⟩ : ∃ m, ne = 2 * (m + 1) := ⟨ne / 2 - 1, by omega⟩
    refine lastNz_zero m _ (fun v hv => h0 v (List.mem_of_mem_take (List.mem_reverse.1 hv))) ?_
    rw [List.length_reverse, List.length_take]; omega
  obtain ⟨l, rfl⟩ : ∃ l, xq = 0 :: 0 :: l := by
    match xq, h0, hl with
    | [], _, h => simp at h; omega
    | [_], _, h => simp at h; omega
    | a :: b :: l, h, _ => exact ⟨l, by rw [h a (by simp), h b (by simp)]⟩
  have hrf : encRateFlag nbits fsInd = 0 ∨ encRateFlag nbits fsInd = 512 := by
    unfold encRateFlag; split <;> simp
  obtain ⟨pki, row, bits, e1, e2, e3, e4⟩ := zero_pair_bits _ hrf
  unfold bitConsumption
  simp only
  rw [if_neg (by omega), hln]
  simp only [List.take_succ_cons, List.take_zero]
  rw [estPairs]
  have hesc : ∀ t, estEscapes (encModeFlag nbits fsInd) t 16 (Int.natAbs 0) (Int.natAbs 0) 0 0 0 = .ok (0, 0, 0, 0, 0) := by
    intro t
    rw [estEscapes.eq_def]
    rfl
  simp only [hesc, Res.bind_ok, show ¬ (0 > ne / 2) by omega, if_false, Nat.zero_add, Nat.add_zero, Nat.zero_mul, Nat.mul_zero, e1, e2, e3]
  rw [estPairs]
  refine ⟨_, rfl, rfl, rfl, ?_, ?_, ?_, ?_⟩
  · simp
  · simp
  · have := bits2048_real bits (by omega)
    simp
    rw [this]
    omega
  · simp
    rw [bits2048_real 0 (by norm_num)]

theorem quantSpectrum_zero {ne fsInd nbits nbitsSpec : Nat} {xf : List ℝ} (h0 : AllZero xf) (hl : xf.length = ne) (hne : ne % 2 = 0)
    (h2 : 2 ≤ ne) (hs : 10 ≤ nbitsSpec) (ggOff ggInd : Int) {q : QuantResult ℝ}
    (h : quantSpectrum ne fsInd xf nbits ggOff ggInd nbitsSpec = .ok q) : AllZero q.xq ∧ q.xq.length = ne ∧ q.lsbMode = false ∧
      q.bc.rateFlag = encRateFlag nbits fsInd ∧ q.bc.nbitsLsb = 0 ∧ q.bc.lastnzTrunc = 2 ∧ q.bc.nbitsEst ≤ 10 ∧ q.bc.nbitsTrunc = 0 := by
  have hz : AllZero (xf.map (quantLine (ggValue ggInd ggOff))) := by
    intro v hv
    obtain ⟨y, hy, rfl⟩ := List.mem_map.1 hv
    rw [h0 y hy, quantLine_zero]
  obtain ⟨bc, e, b1, b2, b3, b4, b5, b6⟩ := bitConsumption_zero (fsInd := fsInd) (nbits := nbits) (nbitsSpec := nbitsSpec) hz
    (by rw [List.length_map, hl]) hne h2
  unfold quantSpectrum at h
  simp only at h
  rw [e, Res.bind_ok, if_pos ⟨by omega, by rw [List.length_map]; omega⟩] at h
  cases h
  refine ⟨((hz.take _).append (AllZero.replicate _)).append (hz.drop _), ?_, ?_, b1, b3, b4, b5, b6⟩
  · simp only [List.length_append, List.length_take, List.length_replicate, List.length_drop, List.length_map]
    omega
  · simp only [Bool.and_eq_false_iff, decide_eq_false_iff_not]
    right
    omega

theorem quantRun_zero {ne fsInd nbits nbw ntns nltpf : Nat} {s s' : QuantSt ℝ} {xf : List ℝ} {o : QuantOut ℝ} (h0 : AllZero xf)
    (hne : ne % 2 = 0) (h2 : 2 ≤ ne) (hs : nbw + ntns + nltpf + nbitsFixed ne nbits + 10 ≤ nbits)
    (h : quantRun ne fsInd s xf nbits nbw ntns nltpf = .ok (s', o)) :
    AllZero o.xq ∧ o.xq.length = ne ∧ o.ggInd = 0 ∧ o.lsbMode = false ∧ o.rateFlag = encRateFlag nbits fsInd ∧ o.nbitsLsb = 0 ∧
      o.lastnzTrunc = 2 ∧ o.nbitsTrunc = 0 := by
  obtain ⟨hl, hb, ind0, reset, ggMin, ggInd, q0, q, -, e1, e2, e3, e4, ho⟩ := quantRun_inv h
  have hsp : 10 ≤ o.nbitsSpec := by omega
  have hmin : ggMin = 0 ∧ ggInd = 0 := by
    unfold ggLimit at e1
    obtain ⟨g, g1, e1⟩ := bind_ok_inv e1
    have hz : (zero : ℝ) = 0 := Rat.cast_zero
    have hg : ggMinOf xf (ggOffEnc nbits fsInd) = 0 := by
      unfold ggMinOf
      rw [maxAbs_zero h0, hz, show lt (0 : ℝ) 0 = false from decide_eq_false (lt_irrefl _)]
      rfl
    rw [hg] at g1
    cases g1
    rw [maxAbs_zero h0, hz, show eq (0 : ℝ) 0 = true from decide_eq_true rfl, Bool.or_true, if_pos rfl] at e1
    cases e1
    exact ⟨rfl, rfl⟩
  obtain ⟨rfl, rfl⟩ := hmin
  obtain ⟨-, -, -, -, -, -, c7, -⟩ := quantSpectrum_zero h0 hl hne h2 hsp _ _ e2
  have hgg : o.ggInd = 0 := by
    unfold ggAdjust at e3
    obtain ⟨_, -, e3⟩ := bind_ok_inv e3
    obtain ⟨_, -, e3⟩ := bind_ok_inv e3
    obtain ⟨_, -, e3⟩ := bind_ok_inv e3
    simp only at e3
    rw [if_neg (by omega)] at e3
    exact (Res.ok.inj e3).symm
  obtain ⟨c1, c2, c3, c4, c5, c6, -, c8⟩ := quantSpectrum_zero h0 hl hne h2 hsp _ _ e4
  refine ⟨?_, ?_, hgg, ?_, ?_, ?_, ?_, ?_⟩ <;> rw [ho] <;> assumption

end Lc3
